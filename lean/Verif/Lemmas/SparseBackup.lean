import Verif.Lemmas.SparseFrames

/-!
Backup to a sparse stream, and the metadata frame.
-/
namespace Imageio.SparseStream
open HttpBackend Spec Spec.Sparse Http Images Props

/-! ### Output -/

theorem Stdout.write_cases (o : Stdout) (d : Bytes) :
    (∃ k e, (some k) ∈ o.calls ∧ External e ∧
      o.write d = (.error e, ⟨o.out ++ d.take k, o.calls.tail⟩)) ∨
    o.write d = (.ok d.length, ⟨o.out ++ d, o.calls.tail⟩) := by
  unfold Stdout.write
  cases hc : o.calls.headD none with
  | some k =>
    refine .inl ⟨k, .os "EIO", ?_, trivial, rfl⟩
    cases hl : o.calls with
    | nil => rw [hl] at hc; simp at hc
    | cons a t => rw [hl] at hc; simp only [List.headD_cons] at hc; rw [hc]; simp
  | none => exact .inr rfl

/-- What an operation on the output did: it wrote a part of `d`, or everything if it succeeded. -/
structure Wrote (o : Stdout) (d : Bytes) (ok : Prop) (o' : Stdout) : Prop where
  out : ∃ p, o'.out = o.out ++ p ∧ p <+: d ∧ (ok → p = d)
  calls : ∀ x ∈ o'.calls, x ∈ o.calls

theorem Wrote.nothing (o : Stdout) (d : Bytes) {ok : Prop} (h : ok → d = []) : Wrote o d ok o :=
  ⟨⟨[], by simp, List.nil_prefix, fun hk => (h hk).symm⟩, fun _ h => h⟩

theorem Wrote.append {o o1 o2 : Stdout} {d1 d2 : Bytes} {ok : Prop} (h1 : Wrote o d1 True o1)
    (h2 : Wrote o1 d2 ok o2) : Wrote o (d1 ++ d2) ok o2 := by
  obtain ⟨p1, a1, a2, a3⟩ := h1.out
  obtain ⟨p2, b1, b2, b3⟩ := h2.out
  refine ⟨⟨p1 ++ p2, by rw [b1, a1, List.append_assoc], ?_, fun h => by rw [a3 trivial, b3 h]⟩,
    fun x hx => h1.calls x (h2.calls x hx)⟩
  rw [a3 trivial]
  exact (List.prefix_append_right_inj _).2 b2

theorem Wrote.extend {o o' : Stdout} {d : Bytes} {ok ok' : Prop} (h : Wrote o d ok o')
    (hn : ¬ ok') (t : Bytes) : Wrote o (d ++ t) ok' o' := by
  obtain ⟨p, a1, a2, a3⟩ := h.out
  exact ⟨⟨p, a1, a2.trans (List.prefix_append _ _), fun h => absurd h hn⟩, h.calls⟩

theorem Wrote.congr {o o' : Stdout} {d : Bytes} {ok ok' : Prop} (h : Wrote o d ok o')
    (hn : ok' → ok) : Wrote o d ok' o' := by
  obtain ⟨p, a1, a2, a3⟩ := h.out
  exact ⟨⟨p, a1, a2, fun h => a3 (hn h)⟩, h.calls⟩

theorem write_spec {o o' : Stdout} {d : Bytes} {r : Except Err Nat} (h : o.write d = (r, o')) :
    Wrote o d (∃ n, r = .ok n) o' ∧
    (∀ e, r = .error e → External e ∧ ∃ k, some k ∈ o.calls) := by
  rcases Stdout.write_cases o d with ⟨k, e, h1, h2, h3⟩ | h3
  · rw [h3] at h
    cases h
    refine ⟨⟨⟨d.take k, rfl, List.take_prefix _ _, by simp⟩, fun _ h => List.mem_of_mem_tail h⟩, ?_⟩
    rintro e' ⟨⟩
    exact ⟨h2, k, h1⟩
  · rw [h3] at h
    cases h
    exact ⟨⟨⟨d, rfl, List.prefix_refl _, fun _ => rfl⟩, fun _ h => List.mem_of_mem_tail h⟩, by simp⟩

theorem writerLoop_stdout (addr step : Nat) (hstep : 0 < step) (todo : Nat) :
    ∀ (pieces : List Nat) (body : Bytes) (o : Stdout) r o',
    writerLoop stdout addr pieces body step todo o = (r, o') →
    Wrote o (body.take todo) (r = .ok ()) o' ∧ (r = .ok () → todo ≤ body.length) ∧
    (∀ e, r = .error e → External e ∧ (body.length < todo ∨ ∃ k, some k ∈ o.calls)) := by
  induction todo using Nat.strongRecOn with
  | ind todo ih =>
    intro pieces body o r o' h
    unfold writerLoop at h
    by_cases h0 : todo = 0
    · subst h0
      simp only [dif_pos] at h
      cases h
      exact ⟨.nothing _ _ (by simp), by simp, by simp⟩
    · rw [dif_neg h0] at h
      simp only at h
      generalize hk : min (min todo step) (min body.length (pieces.headD todo + 1)) = k at h
      by_cases hk0 : k = 0
      · rw [dif_pos hk0] at h
        cases h
        refine ⟨.nothing _ _ (by simp), by simp, ?_⟩
        rintro e ⟨⟩
        exact ⟨trivial, .inl (by omega)⟩
      · rw [dif_neg hk0] at h
        have e0 : body.take todo = body.take k ++ (body.drop k).take (todo - k) := by
          rw [← List.take_add]; congr 1; omega
        cases hx : o.write (body.take k) with
        | mk x o1 =>
        obtain ⟨w1, w2⟩ := write_spec hx
        have hx' : stdout.write o addr (body.take k) = (x, o1) := hx
        rw [hx'] at h
        cases x with
        | error e =>
          cases h
          rw [e0]
          refine ⟨w1.extend (by simp) _, by simp, ?_⟩
          rintro e' ⟨⟩
          obtain ⟨a, b⟩ := w2 e rfl
          exact ⟨a, .inr b⟩
        | ok n =>
          simp only at h
          obtain ⟨g1, g2, g3⟩ := ih (todo - k) (by omega) _ _ _ _ _ h
          rw [e0]
          refine ⟨(w1.congr fun _ => ⟨n, rfl⟩).append g1, fun hr => ?_, fun e he => ?_⟩
          · have := g2 hr
            rw [List.length_drop] at this
            omega
          · obtain ⟨a1, a2⟩ := g3 e he
            rw [List.length_drop] at a2
            refine ⟨a1, ?_⟩
            rcases a2 with a2 | ⟨j, a2⟩
            · exact .inl (by omega)
            · exact .inr ⟨j, w1.calls _ a2⟩

/-! ### Extents -/

/-- The image is not changed, and the environment is used up. -/
structure Same {σ : Type} {S : Server σ} (L : Lawful S.B) (w w' : World σ) : Prop where
  inv : L.Inv w'.srv
  content : L.content w'.srv = L.content w.srv
  size : S.B.size w'.srv = S.B.size w.srv
  nets : ∀ n ∈ w'.nets, n ∈ w.nets

theorem Same.refl {σ : Type} {S : Server σ} {L : Lawful S.B} {w : World σ} (h : L.Inv w.srv) :
    Same L w w := ⟨h, rfl, rfl, fun _ h => h⟩

theorem Same.trans {σ : Type} {S : Server σ} {L : Lawful S.B} {w w1 w2 : World σ}
    (h1 : Same L w w1) (h2 : Same L w1 w2) : Same L w w2 :=
  ⟨h2.inv, h2.content.trans h1.content, h2.size.trans h1.size, fun n h => h1.nets n (h2.nets n h)⟩

/-- Something in the environment may fail. -/
def Trouble {σ : Type} {S : Server σ} (L : Lawful S.B) (w : World σ) (o : Stdout)
    (start length : Nat) : Prop :=
  (∃ k, some k ∈ o.calls) ∨ (∃ n ∈ w.nets, ¬ n.Good) ∨ L.MayFail start length

theorem clientWriteTo_spec {σ : Type} {S : Server σ} (L : Lawful S.B) (hS : S.Proper) (step : Nat)
    (hstep : 0 < step) (start length : Nat) (hl : 0 < length) (w : World σ) (o : Stdout)
    (hi : L.Inv w.srv) (hin : start + length ≤ min S.ticketSize (S.B.size w.srv))
    {r : Except Err Nat} {w' : World σ} {o' : Stdout}
    (h : clientWriteTo S step start length w o = (r, w', o')) :
    Same L w w' ∧ Wrote o (load (L.content w.srv) start length) (∃ n, r = .ok n) o' ∧
    (∀ e, r = .error e → External e ∧ Trouble L w o start length) := by
  unfold clientWriteTo writeTo at h
  simp only at h
  cases hy : getRequest S (some (clientRange (seek w start).2.client.position length))
      (seek w start).2 with
  | mk r2 w2 =>
  have hi1 : L.Inv (seek w start).2.srv := hi
  have hwant := clientRange_wanted (avail := min S.ticketSize (S.B.size w.srv)) (position := start)
    hl (by omega)
  obtain ⟨f1, f2, f3, f4⟩ := getRequest_frame L hS _ _ hi1 hy
  obtain ⟨g1, g2⟩ := getRequest_spec L hS _ start length _ hi1 hwant hy
  have hsame : Same L w w2 := by
    refine ⟨f3.inv, f3.content, f3.bsize, fun n hn => ?_⟩
    rw [f2] at hn
    exact List.mem_of_mem_tail hn
  have hbad : (r2 = .ok ⟨206, length, load (L.content w.srv) start length⟩ → False) →
      (∃ n ∈ w.nets, ¬ n.Good) ∨ L.MayFail start length := by
    intro hno
    by_cases hm : L.MayFail start length
    · exact .inr hm
    · refine .inl ?_
      by_cases hgood : ∀ n ∈ w.nets, n.Good
      · exact (hno (by simpa [seek] using g2 (World.net_good hgood) (.inl hl) hm)).elim
      · simpa only [not_forall, exists_prop] using hgood
  rw [hy] at h
  cases r2 with
  | error e =>
    simp only [Prod.mk.injEq] at h
    obtain ⟨rfl, rfl, rfl⟩ := h
    refine ⟨hsame, .nothing _ _ (by simp), ?_⟩
    rintro e' ⟨⟩
    exact ⟨f4 e rfl, .inr (hbad (by simp))⟩
  | ok resp =>
    simp only at h
    cases hck : checkRange length resp with
    | error e =>
      rw [hck] at h
      simp only [Prod.mk.injEq] at h
      obtain ⟨rfl, rfl, rfl⟩ := h
      refine ⟨hsame, .nothing _ _ (by simp), ?_⟩
      rintro e' ⟨⟩
      refine ⟨checkRange_err hck, .inr (hbad ?_)⟩
      rintro ⟨⟩
      simp [checkRange] at hck
    | ok body =>
      rw [hck] at h
      simp only at h
      obtain ⟨k1, rfl⟩ := checkRange_ok hck
      have hpre : resp.body <+: load (L.content w.srv) start length :=
        (g1 resp rfl (by simpa using k1)).2
      have hple := hpre.length_le
      rw [load_length] at hple
      cases hz : writerLoop stdout 0 (seek w start).2.net.pieces resp.body step length o with
      | mk r3 o3 =>
      obtain ⟨c1, c2, c3⟩ := writerLoop_stdout 0 step hstep length _ _ _ _ _ hz
      rw [List.take_of_length_le hple] at c1
      rw [hz] at h
      cases r3 with
      | error e =>
        simp only [Prod.mk.injEq] at h
        obtain ⟨rfl, rfl, rfl⟩ := h
        refine ⟨hsame, ?_, ?_⟩
        · obtain ⟨p, a1, a2, -⟩ := c1.out
          exact ⟨⟨p, a1, a2.trans hpre, by simp⟩, c1.calls⟩
        · rintro e' ⟨⟩
          obtain ⟨d1, d2⟩ := c3 e rfl
          refine ⟨d1, ?_⟩
          rcases d2 with d2 | d2
          · refine .inr (hbad ?_)
            rintro ⟨⟩
            simp at d2
          · exact .inl d2
      | ok u =>
        simp only [Prod.mk.injEq] at h
        obtain ⟨rfl, rfl, rfl⟩ := h
        refine ⟨⟨hsame.inv, hsame.content, hsame.size, hsame.nets⟩, ?_, by simp⟩
        have hbody : resp.body = load (L.content w.srv) start length := by
          apply hpre.eq_of_length
          have := c2 rfl
          rw [load_length] at *
          omega
        rw [hbody] at c1
        exact c1.congr (fun _ => rfl)

/-- The frame of an extent of an image. -/
def frameOf (img : Nat → Byte) (e : Extent) : Frame :=
  if e.zero then .zero e.start e.length else .data e.start (load img e.start e.length)

/-- The bytes of a frame. -/
def encode : Frame → Bytes
  | .zero s n => frame ZERO s n
  | .data s d => frame DATA s d.length ++ d ++ TERM

/-- The extents of an image that can be read. -/
def Readable {σ : Type} (S : Server σ) (w : World σ) (e : Extent) : Prop :=
  0 < e.length ∧ e.start + e.length ≤ min S.ticketSize (S.B.size w.srv)

theorem sendExtent_spec {σ : Type} {S : Server σ} (L : Lawful S.B) (hS : S.Proper) (step : Nat)
    (hstep : 0 < step) (e : Extent) (w : World σ) (o : Stdout) (hi : L.Inv w.srv)
    (he : Readable S w e) {r : Except Err Unit} {w' : World σ} {o' : Stdout}
    (h : sendExtent S step e w o = (r, w', o')) :
    Same L w w' ∧ Wrote o (encode (frameOf (L.content w.srv) e)) (r = .ok ()) o' ∧
    (∀ x, r = .error x → External x ∧ Trouble L w o e.start e.length) := by
  unfold sendExtent at h
  by_cases hz : e.zero = true
  · rw [if_pos hz] at h
    have hf : encode (frameOf (L.content w.srv) e) = frame ZERO e.start e.length := by
      unfold frameOf
      rw [if_pos hz]
      rfl
    rw [hf]
    cases hx : o.write (frame ZERO e.start e.length) with
    | mk x o1 =>
    obtain ⟨w1, w2⟩ := write_spec hx
    rw [hx] at h
    cases x with
    | error x =>
      simp only [Prod.mk.injEq] at h
      obtain ⟨rfl, rfl, rfl⟩ := h
      refine ⟨.refl hi, w1.congr (by simp), ?_⟩
      rintro x' ⟨⟩
      exact ⟨(w2 x rfl).1, .inl (w2 x rfl).2⟩
    | ok n =>
      simp only [Prod.mk.injEq] at h
      obtain ⟨rfl, rfl, rfl⟩ := h
      exact ⟨.refl hi, w1.congr fun _ => ⟨n, rfl⟩, by simp⟩
  · rw [if_neg hz] at h
    have hf : encode (frameOf (L.content w.srv) e) = frame DATA e.start e.length ++
        (load (L.content w.srv) e.start e.length ++ TERM) := by
      unfold frameOf
      rw [if_neg hz]
      simp [encode]
    rw [hf]
    cases hx : o.write (frame DATA e.start e.length) with
    | mk x o1 =>
    obtain ⟨w1, w2⟩ := write_spec hx
    rw [hx] at h
    cases x with
    | error x =>
      simp only [Prod.mk.injEq] at h
      obtain ⟨rfl, rfl, rfl⟩ := h
      refine ⟨.refl hi, w1.extend (by simp) _, ?_⟩
      rintro x' ⟨⟩
      exact ⟨(w2 x rfl).1, .inl (w2 x rfl).2⟩
    | ok n =>
      simp only at h
      have w1' : Wrote o (frame DATA e.start e.length) True o1 := w1.congr fun _ => ⟨n, rfl⟩
      cases hy : clientWriteTo S step e.start e.length w o1 with
      | mk r2 x2 =>
      obtain ⟨w2', o2⟩ := x2
      obtain ⟨a1, a2, a3⟩ := clientWriteTo_spec L hS step hstep _ _ he.1 _ _ hi he.2 hy
      rw [hy] at h
      cases r2 with
      | error x =>
        simp only [Prod.mk.injEq] at h
        obtain ⟨rfl, rfl, rfl⟩ := h
        refine ⟨a1, w1'.append (a2.extend (by simp) _), ?_⟩
        rintro x' ⟨⟩
        obtain ⟨b1, b2⟩ := a3 x rfl
        refine ⟨b1, ?_⟩
        rcases b2 with ⟨k, b2⟩ | b2
        · exact .inl ⟨k, w1.calls _ b2⟩
        · exact .inr b2
      | ok n2 =>
        simp only at h
        have a2' : Wrote o1 (load (L.content w.srv) e.start e.length) True o2 :=
          a2.congr fun _ => ⟨n2, rfl⟩
        cases ht : o2.write TERM with
        | mk x o3 =>
        obtain ⟨c1, c2⟩ := write_spec ht
        rw [ht] at h
        cases x with
        | error x =>
          simp only [Prod.mk.injEq] at h
          obtain ⟨rfl, rfl, rfl⟩ := h
          refine ⟨a1, w1'.append (a2'.append (c1.congr (by simp))), ?_⟩
          rintro x' ⟨⟩
          obtain ⟨d1, k, d2⟩ := c2 x rfl
          exact ⟨d1, .inl ⟨k, w1.calls _ (a2.calls _ d2)⟩⟩
        | ok n3 =>
          simp only [Prod.mk.injEq] at h
          obtain ⟨rfl, rfl, rfl⟩ := h
          exact ⟨a1, w1'.append (a2'.append (c1.congr fun _ => ⟨n3, rfl⟩)), by simp⟩

theorem sendExtents_spec {σ : Type} {S : Server σ} (L : Lawful S.B) (hS : S.Proper) (step : Nat)
    (hstep : 0 < step) (exts : List Extent) : ∀ (w : World σ) (o : Stdout), L.Inv w.srv →
    (∀ e ∈ exts, Readable S w e) → ∀ r w' o', sendExtents S step exts w o = (r, w', o') →
    Same L w w' ∧
    Wrote o ((exts.map (frameOf (L.content w.srv))).flatMap encode) (r = .ok ()) o' ∧
    (∀ x, r = .error x → External x ∧ ∃ e ∈ exts, Trouble L w o e.start e.length) := by
  induction exts with
  | nil =>
    intro w o hi _ r w' o' h
    simp only [sendExtents, Prod.mk.injEq] at h
    obtain ⟨rfl, rfl, rfl⟩ := h
    exact ⟨.refl hi, .nothing _ _ (by simp), by simp⟩
  | cons e es ih =>
    intro w o hi he r w' o' h
    unfold sendExtents at h
    cases hx : sendExtent S step e w o with
    | mk r1 x1 =>
    obtain ⟨w1, o1⟩ := x1
    obtain ⟨a1, a2, a3⟩ := sendExtent_spec L hS step hstep e w o hi (he e (by simp)) hx
    rw [hx] at h
    rw [List.map_cons, List.flatMap_cons]
    cases r1 with
    | error x =>
      simp only [Prod.mk.injEq] at h
      obtain ⟨rfl, rfl, rfl⟩ := h
      refine ⟨a1, a2.extend (by simp) _, ?_⟩
      rintro x' ⟨⟩
      obtain ⟨b1, b2⟩ := a3 x rfl
      exact ⟨b1, e, by simp, b2⟩
    | ok u =>
      simp only at h
      obtain ⟨g1, g2, g3⟩ := ih w1 o1 a1.inv (fun e' he' => by
        have := he e' (by simp [he'])
        unfold Readable at *
        rw [a1.size]
        exact this) _ _ _ h
      rw [a1.content] at g2
      refine ⟨a1.trans g1, (a2.congr fun _ => rfl).append g2, ?_⟩
      intro x hx'
      obtain ⟨b1, e', b2, b3⟩ := g3 x hx'
      refine ⟨b1, e', by simp [b2], ?_⟩
      rcases b3 with ⟨k, b3⟩ | ⟨n, b3, b4⟩ | b3
      · exact .inl ⟨k, a2.calls _ b3⟩
      · exact .inr (.inl ⟨n, a1.nets n b3, b4⟩)
      · exact .inr (.inr b3)

theorem sendMeta_spec {payload : Bytes} {o o' : Stdout} {r : Except Err Unit}
    (h : sendMeta payload o = (r, o')) :
    Wrote o (frame META 0 payload.length ++ payload ++ TERM) (r = .ok ()) o' ∧
    (∀ x, r = .error x → External x ∧ ∃ k, some k ∈ o.calls) := by
  unfold sendMeta at h
  rw [List.append_assoc]
  cases hx : o.write (frame META 0 payload.length) with
  | mk x o1 =>
  obtain ⟨w1, w2⟩ := write_spec hx
  rw [hx] at h
  cases x with
  | error x =>
    cases h
    exact ⟨w1.extend (by simp) _, by rintro x' ⟨⟩; exact w2 x rfl⟩
  | ok n =>
    simp only at h
    have w1' : Wrote o (frame META 0 payload.length) True o1 := w1.congr fun _ => ⟨n, rfl⟩
    cases hy : o1.write payload with
    | mk x o2 =>
    obtain ⟨a1, a2⟩ := write_spec hy
    rw [hy] at h
    cases x with
    | error x =>
      cases h
      refine ⟨w1'.append (a1.extend (by simp) _), ?_⟩
      rintro x' ⟨⟩
      obtain ⟨b, k, c⟩ := a2 x rfl
      exact ⟨b, k, w1.calls _ c⟩
    | ok n2 =>
      simp only at h
      have a1' : Wrote o1 payload True o2 := a1.congr fun _ => ⟨n2, rfl⟩
      cases hz : o2.write TERM with
      | mk x o3 =>
      obtain ⟨c1, c2⟩ := write_spec hz
      rw [hz] at h
      cases x with
      | error x =>
        cases h
        refine ⟨w1'.append (a1'.append (c1.congr (by simp))), ?_⟩
        rintro x' ⟨⟩
        obtain ⟨b, k, c⟩ := c2 x rfl
        exact ⟨b, k, w1.calls _ (a1.calls _ c)⟩
      | ok n3 =>
        cases h
        exact ⟨w1'.append (a1'.append (c1.congr fun _ => ⟨n3, rfl⟩)), by simp⟩

theorem sendFrames_spec {σ : Type} {S : Server σ} (L : Lawful S.B) (hS : S.Proper) (step : Nat)
    (hstep : 0 < step) (incremental : Bool) (exts : List Extent) (w : World σ) (o : Stdout)
    (hi : L.Inv w.srv) (he : ∀ e ∈ exts, Readable S w e) {r : Except Err Unit} {w' : World σ}
    {o' : Stdout} (h : sendFrames S step incremental exts w o = (r, w', o')) :
    Same L w w' ∧
    Wrote o ((((if incremental then exts.filter (·.dirty) else exts).map
      (frameOf (L.content w.srv))).flatMap encode) ++ frame STOP 0 0) (r = .ok ()) o' ∧
    (∀ x, r = .error x → External x ∧
      ((∃ k, some k ∈ o.calls) ∨ ∃ e ∈ exts, Trouble L w o e.start e.length)) := by
  unfold sendFrames at h
  generalize hl : (if incremental then exts.filter (·.dirty) else exts) = l at *
  have hsub : ∀ e ∈ l, e ∈ exts := by
    intro e hm
    rw [← hl] at hm
    split at hm
    · exact (List.mem_filter.1 hm).1
    · exact hm
  cases hx : sendExtents S step l w o with
  | mk r1 x1 =>
  obtain ⟨w1, o1⟩ := x1
  obtain ⟨a1, a2, a3⟩ := sendExtents_spec L hS step hstep l w o hi (fun e hm => he e (hsub e hm))
    _ _ _ hx
  rw [hx] at h
  cases r1 with
  | error x =>
    simp only [Prod.mk.injEq] at h
    obtain ⟨rfl, rfl, rfl⟩ := h
    refine ⟨a1, a2.extend (by simp) _, ?_⟩
    rintro x' ⟨⟩
    obtain ⟨b1, e, b2, b3⟩ := a3 x rfl
    exact ⟨b1, .inr ⟨e, hsub e b2, b3⟩⟩
  | ok u =>
    simp only at h
    cases hz : o1.write (frame STOP 0 0) with
    | mk x o2 =>
    obtain ⟨c1, c2⟩ := write_spec hz
    rw [hz] at h
    cases x with
    | error x =>
      simp only [Prod.mk.injEq] at h
      obtain ⟨rfl, rfl, rfl⟩ := h
      refine ⟨a1, (a2.congr fun _ => rfl).append (c1.congr (by simp)), ?_⟩
      rintro x' ⟨⟩
      obtain ⟨b, k, c⟩ := c2 x rfl
      exact ⟨b, .inl ⟨k, a2.calls _ c⟩⟩
    | ok n =>
      simp only [Prod.mk.injEq] at h
      obtain ⟨rfl, rfl, rfl⟩ := h
      exact ⟨a1, (a2.congr fun _ => rfl).append (c1.congr fun _ => ⟨n, rfl⟩), by simp⟩

/-- The frames of extents are frames of the documented format. -/
theorem frames_encode (img : Nat → Byte) (exts : List Extent)
    (h : ∀ e ∈ exts, 0 < e.length ∧ e.start + e.length < 2 ^ 64) :
    Frames (exts.map (frameOf img)) (((exts.map (frameOf img)).flatMap encode) ++ frame STOP 0 0) := by
  induction exts with
  | nil =>
    have := frame_header "stop" 0 0 (by decide) (by decide)
    rw [kind_stop] at this
    exact .stop this
  | cons e es ih =>
    have ih := ih (fun e' he' => h e' (by simp [he']))
    obtain ⟨h1, h2⟩ := h e (by simp)
    rw [List.map_cons, List.flatMap_cons, List.append_assoc]
    by_cases hz : e.zero = true
    · have hf : frameOf img e = .zero e.start e.length := by unfold frameOf; rw [if_pos hz]
      rw [hf]
      have := frame_header "zero" e.start e.length (by omega) (by omega)
      rw [kind_zero] at this
      exact .zero this h1 ih
    · have hf : frameOf img e = .data e.start (load img e.start e.length) := by
        unfold frameOf; rw [if_neg hz]
      rw [hf]
      have hd := frame_header "data" e.start e.length (by omega) (by omega)
      rw [kind_data] at hd
      have hlen : (load img e.start e.length).length = e.length := load_length _ _ _
      have := Frames.data (bytes := load img e.start e.length) (by rw [hlen]; exact hd)
        (by rw [hlen]; exact h1) ih
      rw [crlf_eq] at this
      show Frames _ (frame DATA e.start (load img e.start e.length).length ++ _ ++ _ ++ _)
      rw [hlen]
      exact this

/-! ### The metadata frame -/

theorem readMeta_spec (M : Meta) {start : Nat} {h payload rest : Bytes}
    (hh : Header "meta" start payload.length h) (i : Stdin)
    (hp : i.data <+: h ++ payload ++ TERM ++ rest) {r : Except Err Int} {i' : Stdin}
    (hr : readMeta M i = (r, i')) :
    (∀ x ∈ i'.calls, x ∈ i.calls) ∧
    (∀ v, r = .ok v → M.load payload = .ok v ∧ i'.data <+: rest ∧
      i'.data = i.data.drop (h ++ payload ++ TERM).length) ∧
    (∀ e, r = .error e → h ++ payload ++ TERM <+: i.data → none ∉ i.calls →
      M.load payload = .error e) := by
  have hk : ("meta".toUTF8.toList).length = 4 := by rw [kind_meta]; rfl
  have hs : (32 : Byte) ∉ "meta".toUTF8.toList := by rw [kind_meta]; decide
  have hlen := header_length hk hh
  have hp' : i.data <+: h ++ (payload ++ (TERM ++ rest)) := by
    simpa only [List.append_assoc] using hp
  have hshort : h ++ payload ++ TERM <+: i.data → 40 + payload.length + 2 ≤ i.data.length := by
    intro hp
    have := hp.length_le
    simp only [List.length_append, hlen, TERM, List.length_cons, List.length_nil] at this
    omega
  unfold readMeta at hr
  cases hx : readFrame i with
  | mk r1 i1 =>
  obtain ⟨a1, a2, a3⟩ := read_header hk hs hh i hp' hx
  rw [hx] at hr
  cases r1 with
  | error e =>
    cases hr
    refine ⟨a1, by simp, ?_⟩
    rintro e' ⟨⟩ hpre hn
    rcases (a2 e rfl).2 with h | h
    · exact absurd h hn
    · have := hshort hpre; omega
  | ok x =>
    obtain ⟨kind, st, ln⟩ := x
    obtain ⟨b1, b2, m, b3, b4, b5⟩ := a3 _ rfl
    rw [kind_meta] at b4
    simp only [Prod.mk.injEq] at b4
    obtain ⟨rfl, rfl, rfl⟩ := b4
    simp only [ne_eq, not_true_eq_false, if_false] at hr
    rw [if_neg (by omega)] at hr
    simp only [Int.toNat_natCast] at hr
    rcases Stdin.read_cases i1 m with ⟨c1, c2⟩ | c2
    · rw [c2] at hr
      cases hr
      refine ⟨fun x hx => a1 x (tail_sub x hx), by simp, ?_⟩
      rintro e' ⟨⟩ hpre hn
      exact absurd (a1 _ c1) hn
    · rw [c2] at hr
      simp only at hr
      have hpl : 40 ≤ i.data.length → payload.length ≤ i1.data.length → i1.data.take m = payload := by
        intro h40 hl
        rw [b5 h40, prefix_take b2, List.take_of_length_le hl]
      have hfull : h ++ payload ++ TERM <+: i.data → payload.length ≤ i1.data.length := by
        intro hpre
        have := hshort hpre
        rw [b1, List.length_drop]
        omega
      cases hload : M.load (i1.data.take m) with
      | error e =>
        rw [hload] at hr
        cases hr
        refine ⟨fun x hx => a1 x (tail_sub x hx), by simp, ?_⟩
        rintro e' ⟨⟩ hpre hn
        have := hshort hpre
        rw [← hload, hpl (by omega) (hfull hpre)]
      | ok v =>
        rw [hload] at hr
        simp only at hr
        cases ht : readTerm ⟨i1.data.drop m, i1.calls.tail⟩ with
        | mk r2 i2 =>
        obtain ⟨d1, d2, d3⟩ := readTerm_spec ht
        rw [ht] at hr
        cases r2 with
        | error e =>
          cases hr
          refine ⟨fun x hx => a1 x (tail_sub x (d1 x hx)), by simp, ?_⟩
          rintro e' ⟨⟩ hpre hn
          exfalso
          have h40 := hshort hpre
          rcases (d3 e rfl).2 with h | h
          · exact hn (a1 _ (tail_sub _ h))
          · apply h
            rw [b5 (by omega), b1, ← hlen]
            obtain ⟨t, ht⟩ := hpre
            rw [← ht]
            simp only [List.append_assoc, List.drop_left]
            exact ⟨t, rfl⟩
        | ok u =>
          cases hr
          obtain ⟨e1, e2⟩ := d2 rfl
          have h40 : 40 ≤ i.data.length := by
            have := e1.length_le
            simp only [TERM, List.length_cons, List.length_nil, b1, List.length_drop] at this
            omega
          have hm := b5 h40
          subst hm
          have hl : payload.length ≤ i1.data.length := by
            have := e1.length_le
            simp only [TERM, List.length_cons, List.length_nil, List.length_drop] at this
            omega
          refine ⟨fun x hx => a1 x (tail_sub x (d1 x hx)), ?_, by simp⟩
          rintro v' ⟨⟩
          refine ⟨?_, ?_, ?_⟩
          · rw [← hload, hpl h40 hl]
          · rw [e2]
            exact prefix_drop (b := TERM) (prefix_drop b2)
          · rw [e2, b1]
            simp only [List.drop_drop, List.length_append, hlen, TERM, List.length_cons,
              List.length_nil]

theorem size_same {σ : Type} {S : Server σ} (L : Lawful S.B) (hS : S.Proper) (w : World σ)
    (hi : L.Inv w.srv) {r : Except Err Nat} {w' : World σ} (h : HttpBackend.size S w = (r, w')) :
    Same L w w' ∧ w'.client.canFlush = w.client.canFlush := by
  unfold HttpBackend.size at h
  split at h
  · cases h; exact ⟨.refl hi, rfl⟩
  · have key : ∀ r1 w1, fetchSize S w = (r1, w1) →
        Same L w w1 ∧ w1.client.canFlush = w.client.canFlush := by
      intro r1 w1 hf
      unfold fetchSize at hf
      split at hf
      · split at hf
        · cases hf; exact ⟨.refl hi, rfl⟩
        · split at hf <;> (cases hf; exact ⟨.refl hi, rfl⟩)
      · unfold emulateHead at hf
        cases hy : getRequest S none w with
        | mk r2 w2 =>
        obtain ⟨f1, f2, f3, f4⟩ := getRequest_frame L hS _ w hi hy
        have hs : Same L w w2 ∧ w2.client.canFlush = w.client.canFlush := by
          refine ⟨⟨f3.inv, f3.content, f3.bsize, fun n hn => ?_⟩, by rw [f1]⟩
          rw [f2] at hn
          exact List.mem_of_mem_tail hn
        rw [hy] at hf
        cases r2 with
        | error e => cases hf; exact hs
        | ok resp =>
          simp only at hf
          split at hf <;> (cases hf; exact hs)
    cases hx : fetchSize S w with
    | mk r1 w1 =>
    obtain ⟨k1, k2⟩ := key _ _ hx
    rw [hx] at h
    cases r1 with
    | error e => cases h; exact ⟨k1, k2⟩
    | ok n => cases h; exact ⟨⟨k1.inv, k1.content, k1.size, k1.nets⟩, k2⟩

/-! ### Upload and download -/

theorem upload_spec {σ : Type} {S : Server σ} (L : Lawful S.B) (hS : S.Proper) (reliable : Prop)
    (M : Meta) (step : Nat) (hstep : 0 < step) {payload : Bytes} {fs : List Frame} {s : Bytes}
    (hs : Stream payload fs s) (w : World σ) (i : Stdin) (trail : Bytes) (hi : L.Inv w.srv)
    (hg : reliable → ∀ n ∈ w.nets, n.Good) (hp : i.data <+: s ++ trail) {r : Except Err Unit}
    {w' : World σ} {i' : Stdin} (h : upload S M step w i = (r, w', i')) :
    L.Inv w'.srv ∧
    (∀ j, (∀ f ∈ fs, ¬ f.Covers j) → L.content w'.srv j = L.content w.srv j) ∧
    (r = .ok () → L.content w'.srv = applyAll fs (L.content w.srv) ∧
      (w.client.canFlush = true ∨ fs ≠ [] → L.durable w'.srv = L.content w'.srv) ∧
      i'.data = i.data.drop s.length ∧ (∀ f ∈ fs, f.start + f.length ≤ S.ticketSize) ∧
      ∃ v n, M.load payload = .ok v ∧ (HttpBackend.size S w).1 = .ok n ∧ v ≤ n) ∧
    (∀ v n, M.load payload = .ok v → (HttpBackend.size S w).1 = .ok n → n < v →
      L.content w'.srv = L.content w.srv) ∧
    (∀ e, r = .error e → s <+: i.data → none ∉ i.calls →
      (∀ v, M.load payload ≠ .ok v) ∨ (∀ n, (HttpBackend.size S w).1 ≠ .ok n) ∨
      (∃ v n, M.load payload = .ok v ∧ (HttpBackend.size S w).1 = .ok n ∧ n < v) ∨
      (∃ f ∈ fs, MayFail L reliable (f.start + f.length)) ∨ MayFail L reliable 0) := by
  obtain ⟨start, hd, rest, hh, hf, rfl⟩ := hs
  rw [crlf_eq] at *
  have hp' : i.data <+: hd ++ payload ++ TERM ++ (rest ++ trail) := by
    simpa only [List.append_assoc] using hp
  have hpre : hd ++ payload ++ TERM ++ rest <+: i.data → hd ++ payload ++ TERM <+: i.data :=
    fun h => (List.prefix_append _ _).trans h
  unfold upload at h
  cases hm : readMeta M i with
  | mk r1 i1 =>
  obtain ⟨a1, a2, a3⟩ := readMeta_spec M hh i hp' hm
  rw [hm] at h
  cases r1 with
  | error e =>
    simp only [Prod.mk.injEq] at h
    obtain ⟨rfl, rfl, rfl⟩ := h
    refine ⟨hi, fun _ _ => rfl, by simp, fun _ _ _ _ _ => rfl, ?_⟩
    rintro e' ⟨⟩ hpp hn
    refine .inl fun v hv => ?_
    rw [a3 e rfl (hpre hpp) hn] at hv
    cases hv
  | ok v =>
    simp only at h
    obtain ⟨b1, b2, b3⟩ := a2 v rfl
    cases hz : HttpBackend.size S w with
    | mk r2 w2 =>
    obtain ⟨c1, c2⟩ := size_same L hS w hi hz
    rw [hz] at h
    cases r2 with
    | error e =>
      simp only [Prod.mk.injEq] at h
      obtain ⟨rfl, rfl, rfl⟩ := h
      refine ⟨c1.inv, fun _ _ => by rw [c1.content], by simp, fun _ _ _ _ _ => c1.content, ?_⟩
      rintro e' ⟨⟩ hpp hn
      exact .inr (.inl fun n hn => by cases hn)
    | ok n =>
      simp only at h
      by_cases hv : v > (n : Int)
      · rw [if_pos hv] at h
        simp only [Prod.mk.injEq] at h
        obtain ⟨rfl, rfl, rfl⟩ := h
        refine ⟨c1.inv, fun _ _ => by rw [c1.content], by simp, fun _ _ _ _ _ => c1.content, ?_⟩
        rintro e' ⟨⟩ hpp hn
        exact .inr (.inr (.inl ⟨v, n, b1, rfl, hv⟩))
      · rw [if_neg hv] at h
        have hsmall : ∀ v' n', M.load payload = .ok v' → (Except.ok n : Except Err Nat) = .ok n' →
            ¬ ((n' : Int) < v') := by
          rintro v' n' hv' ⟨⟩
          rw [b1] at hv'
          cases hv'
          exact hv
        cases hr : restoreFrames S step w2 i1 with
        | mk r3 x3 =>
        obtain ⟨w3, i3⟩ := x3
        obtain ⟨d, d'⟩ := restore_spec L hS reliable step hstep hf w2 i1 trail c1.inv
          (fun hr n hn => hg hr n (c1.nets n hn)) b2 _ _ _ hr
        rw [hr] at h
        have hfull : hd ++ payload ++ TERM ++ rest <+: i.data → rest <+: i1.data := by
          rintro ⟨t, ht⟩
          rw [b3, ← ht, List.append_assoc (hd ++ payload ++ TERM), List.drop_left]
          exact ⟨t, rfl⟩
        cases r3 with
        | error e =>
          simp only [Prod.mk.injEq] at h
          obtain ⟨rfl, rfl, rfl⟩ := h
          refine ⟨d.kept.inv, fun j hj => by rw [d.outside j hj, c1.content], by simp,
            fun v' n' h1 h2 h3 => absurd h3 (hsmall v' n' h1 h2), ?_⟩
          rintro e' ⟨⟩ hpp hn
          exact .inr (.inr (.inr (.inl ((d.error e rfl).2 (hfull hpp) (fun h => hn (a1 _ h))))))
        | ok u =>
          simp only at h
          obtain ⟨e1, e2, e3, e4⟩ := d.ok rfl
          cases hfl : HttpBackend.flush S w3 with
          | mk r4 w4 =>
          obtain ⟨f1, f2, f3, f4, f5⟩ := flush_spec (reliable := reliable) L hS w3 d.kept.inv
            (fun hr n hn => hg hr n (c1.nets n (d.kept.nets n hn))) hfl
          rw [hfl] at h
          cases r4 with
          | error e =>
            simp only [Prod.mk.injEq] at h
            obtain ⟨rfl, rfl, rfl⟩ := h
            refine ⟨f1.inv, fun j hj => by rw [f3, d.outside j hj, c1.content], by simp,
              fun v' n' h1 h2 h3 => absurd h3 (hsmall v' n' h1 h2), ?_⟩
            rintro e' ⟨⟩ hpp hn
            exact .inr (.inr (.inr (.inr (f5 e rfl).2)))
          | ok u =>
            simp only [Prod.mk.injEq] at h
            obtain ⟨rfl, rfl, rfl⟩ := h
            refine ⟨f1.inv, fun j hj => by rw [f3, d.outside j hj, c1.content], fun _ => ?_,
              fun v' n' h1 h2 h3 => absurd h3 (hsmall v' n' h1 h2), by simp⟩
            refine ⟨by rw [f3, e1, c1.content], ?_, ?_, e4, v, n, b1, rfl, by omega⟩
            · intro hdur
              by_cases hcf : w.client.canFlush = true
              · rw [f4 rfl (by rw [d.kept.canFlush, c2]; exact hcf), f3]
              · have hcf' : w.client.canFlush = false := by simpa using hcf
                have hw4 : w4 = w3 := by
                  unfold HttpBackend.flush at hfl
                  rw [d.kept.canFlush, c2, hcf'] at hfl
                  simp only [Bool.false_eq_true, if_false, Prod.mk.injEq, true_and] at hfl
                  exact hfl.symm
                rw [hw4]
                exact e2 (c2.trans hcf') (hdur.resolve_left hcf)
            · rw [e3, b3, List.drop_drop]
              congr 1
              simp only [List.length_append]

theorem download_spec {σ : Type} {S : Server σ} (L : Lawful S.B) (hS : S.Proper) (M : Meta)
    (step : Nat) (hstep : 0 < step) (incremental : Bool) (exts : List Extent) (w : World σ)
    (o : Stdout) (hi : L.Inv w.srv) (he : ∀ e ∈ exts, Readable S w e)
    (hsize : S.B.size w.srv < 2 ^ 64) {r : Except Err Unit} {w' : World σ} {o' : Stdout}
    {payload : Bytes} (hpay : dumpMetadata M exts incremental = .ok payload)
    (hlen : payload.length < 2 ^ 64)
    (h : download S M step incremental (.ok exts) w o = (r, w', o')) :
    Same L w w' ∧
    (∃ s, Stream payload ((if incremental then exts.filter (·.dirty) else exts).map
      (frameOf (L.content w.srv))) s ∧ Wrote o s (r = .ok ()) o') ∧
    (∀ x, r = .error x → External x ∧
      ((∃ k, some k ∈ o.calls) ∨ ∃ e ∈ exts, Trouble L w o e.start e.length)) := by
  unfold download at h
  simp only [hpay] at h
  generalize hl : (if incremental then exts.filter (·.dirty) else exts) = l
  have hsub : ∀ e ∈ l, e ∈ exts := by
    intro e hm
    rw [← hl] at hm
    split at hm
    · exact (List.mem_filter.1 hm).1
    · exact hm
  have hframes := frames_encode (L.content w.srv) l (fun e hm => by
    obtain ⟨h1, h2⟩ := he e (hsub e hm)
    exact ⟨h1, by omega⟩)
  have hmeta := frame_header "meta" 0 payload.length (by decide) hlen
  rw [kind_meta] at hmeta
  have hstream : Stream payload (l.map (frameOf (L.content w.srv)))
      (frame META 0 payload.length ++ payload ++ TERM ++
        (((l.map (frameOf (L.content w.srv))).flatMap encode) ++ frame STOP 0 0)) :=
    ⟨0, _, _, hmeta, hframes, by rw [crlf_eq]⟩
  cases hx : sendMeta payload o with
  | mk r1 o1 =>
  obtain ⟨a1, a2⟩ := sendMeta_spec hx
  rw [hx] at h
  cases r1 with
  | error x =>
    simp only [Prod.mk.injEq] at h
    obtain ⟨rfl, rfl, rfl⟩ := h
    refine ⟨.refl hi, ⟨_, hstream, a1.extend (by simp) _⟩, ?_⟩
    rintro x' ⟨⟩
    exact ⟨(a2 x rfl).1, .inl (a2 x rfl).2⟩
  | ok u =>
    simp only at h
    obtain ⟨b1, b2, b3⟩ := sendFrames_spec L hS step hstep incremental exts w o1 hi he h
    rw [hl] at b2
    refine ⟨b1, ⟨_, hstream, (a1.congr fun _ => rfl).append b2⟩, ?_⟩
    intro x hx'
    obtain ⟨c1, c2⟩ := b3 x hx'
    refine ⟨c1, ?_⟩
    rcases c2 with ⟨k, c2⟩ | ⟨e, c2, c3⟩
    · exact .inl ⟨k, a1.calls _ c2⟩
    · refine .inr ⟨e, c2, ?_⟩
      rcases c3 with ⟨k, c3⟩ | c3
      · exact .inl ⟨k, a1.calls _ c3⟩
      · exact .inr c3

end Imageio.SparseStream
