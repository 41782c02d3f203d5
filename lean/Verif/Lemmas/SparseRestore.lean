import Verif.Lemmas.SparseStream

/-!
Lemmas about restoring a sparse stream: what every step does to the served image and to the input.
-/
namespace Imageio.SparseStream
open HttpBackend Spec Spec.Sparse Http Images Props

/-- What never changes while restoring: the client still knows what it knew, the state of the
server is covered, and the environment is used up. -/
structure Kept {σ : Type} {S : Server σ} (L : Lawful S.B) (w w' : World σ) : Prop where
  inv : L.Inv w'.srv
  nets : ∀ n ∈ w'.nets, n ∈ w.nets
  size_ge : S.B.size w.srv ≤ S.B.size w'.srv
  canFlush : w'.client.canFlush = w.client.canFlush
  size : w'.client.size = w.client.size

theorem Kept.refl {σ : Type} {S : Server σ} {L : Lawful S.B} {w : World σ} (h : L.Inv w.srv) :
    Kept L w w := ⟨h, fun _ h => h, Nat.le_refl _, rfl, rfl⟩

theorem Kept.trans {σ : Type} {S : Server σ} {L : Lawful S.B} {w w1 w2 : World σ}
    (h1 : Kept L w w1) (h2 : Kept L w1 w2) : Kept L w w2 :=
  ⟨h2.inv, fun n h => h1.nets n (h2.nets n h), Nat.le_trans h1.size_ge h2.size_ge,
    h2.canFlush.trans h1.canFlush, h2.size.trans h1.size⟩

theorem Kept.of_after {σ : Type} {S : Server σ} {L : Lawful S.B} {w w' : World σ}
    (h : After L w w') (hc : w'.client.canFlush = w.client.canFlush)
    (hs : w'.client.size = w.client.size) : Kept L w w' := by
  refine ⟨h.inv, fun n hn => ?_, h.size_ge, hc, hs⟩
  rcases h.nets with h | h
  · rwa [h] at hn
  · rw [h] at hn; exact List.mem_of_mem_tail hn

theorem Kept.of_seek {σ : Type} {S : Server σ} {L : Lawful S.B} {w w' : World σ} {start : Nat}
    (h : Kept L (seek w start).2 w') : Kept L w w' :=
  ⟨h.inv, h.nets, h.size_ge, h.canFlush, h.size⟩

/-! ### Requests of no bytes -/

theorem parse_empty (p : Nat) : parseContentRange (clientContentRange p 0) = none := by
  cases p with
  | zero => decide +kernel
  | succ p => exact C17_counterexample_empty_write p

theorem put_empty {σ : Type} (B : Backend σ) (n : Nat) (a : Access) (q : PutReq) (s : σ) (c : Conn)
    (h : putOffset q.contentRange = none) : (put B n a q s c).2.1 = s := by
  unfold put
  split
  · rfl
  · simp only [h]
    split <;> rfl

theorem putRequest_empty {σ : Type} (S : Server σ) (body : Bytes) (w : World σ) :
    (putRequest S 0 body w).2 = { w with nets := w.nets.tail } := by
  have h : ∀ q s c, q = some (clientContentRange w.client.position 0) → ∀ i l,
      (put S.B S.buf.length (w.net.access S.ticketSize) ⟨i, l, q⟩ s c).2.1 = s := by
    intro q s c hq i l
    apply put_empty
    subst hq
    show (parseContentRange _).map _ = none
    rw [parse_empty]
    rfl
  unfold putRequest serve
  simp only
  rw [h _ _ _ rfl]

theorem putResult_empty {σ : Type} {S : Server σ} (L : Lawful S.B) (body : Bytes) (w : World σ)
    (hi : L.Inv w.srv) {r : Except Err Nat} {w' : World σ}
    (h : putResult 0 (putRequest S 0 body w) = (r, w')) : Kept L w w' ∧ w'.srv = w.srv ∧
      (∀ e, r = .error e → External e) := by
  have he := putRequest_empty S body w
  cases hx : putRequest S 0 body w with
  | mk r1 w1 =>
  rw [hx] at he h
  simp only at he
  subst he
  have hext : ∀ e, r1 = .error e → External e := by
    intro e hr
    unfold putRequest at hx
    simp only [Prod.mk.injEq] at hx
    rw [← hx.1] at hr
    split at hr
    · cases hr; trivial
    · exact Net.response_external hr
  have hk : Kept L w { w with nets := w.nets.tail } :=
    ⟨hi, fun n hn => List.mem_of_mem_tail hn, Nat.le_refl _, rfl, rfl⟩
  unfold putResult at h
  cases r1 with
  | error e =>
    cases h
    refine ⟨hk, rfl, ?_⟩
    rintro e' ⟨⟩
    exact hext e rfl
  | ok resp =>
    simp only at h
    split at h
    · cases h
      refine ⟨hk, rfl, ?_⟩
      rintro e' ⟨⟩
      trivial
    · cases h
      exact ⟨⟨hk.inv, hk.nets, hk.size_ge, rfl, rfl⟩, rfl, by simp⟩

/-! ### Zeroing and copying -/

theorem clientZero_kept {σ : Type} {S : Server σ} (L : Lawful S.B) (hS : S.Proper)
    (start length : Nat) (w : World σ) (hi : L.Inv w.srv)
    {r : Except Err Nat} {w' : World σ} (h : clientZero S start length w = (r, w')) :
    Kept L w w' ∧
    (∀ i, ¬ InRange start length i → L.content w'.srv i = L.content w.srv i) ∧
    (∀ e, r = .error e → External e) := by
  unfold clientZero at h
  by_cases h0 : 0 < length
  · obtain ⟨h1, h2, h3⟩ := zero_spec (reliable := False) L hS length h0 (seek w start).2 hi
      (fun h => h.elim) h
    cases r with
    | error e =>
      obtain ⟨a1, a2, a3, a4⟩ := h3 e rfl
      refine ⟨.of_seek (.of_after h1 (by rw [a3]) (by rw [a3])), a4, ?_⟩
      rintro e' ⟨⟩
      exact a1
    | ok n =>
      obtain ⟨a1, a2, a3, a4, a5⟩ := h2 n rfl
      refine ⟨.of_seek (.of_after h1 (by rw [a2]) (by rw [a2])), ?_, by simp⟩
      intro i hni
      rw [a4]
      apply store_outside
      simpa [zeros, InRange, seek] using hni
  · have h0' : length = 0 := by omega
    subst h0'
    unfold HttpBackend.zero at h
    split at h
    · unfold emulateZero at h
      obtain ⟨h1, h2, h3⟩ := putResult_empty L _ (seek w start).2 hi h
      exact ⟨⟨h1.inv, h1.nets, h1.size_ge, h1.canFlush, h1.size⟩, fun i _ => by rw [h2]; rfl, h3⟩
    · cases hx : patchRequest S (zeroMessage (seek w start).2.client.position 0
          (!(seek w start).2.client.canFlush)) (seek w start).2 with
      | mk r1 w1 =>
      obtain ⟨h1, h2, h3, h4, h5⟩ := patchZero_spec L hS _ _ _ (seek w start).2 hi hx
      rw [hx] at h
      have hk : Kept L w w1 := by
        refine ⟨h1.inv, fun n hn => ?_, h1.size_ge, by rw [h1.client]; rfl, by rw [h1.client]; rfl⟩
        rw [h1.nets] at hn
        exact List.mem_of_mem_tail hn
      cases r1 with
      | error e =>
        cases h
        refine ⟨hk, h2, ?_⟩
        rintro e' ⟨⟩
        exact h5 e rfl
      | ok u =>
        cases h
        exact ⟨⟨hk.inv, hk.nets, hk.size_ge, hk.canFlush, hk.size⟩, h2, by simp⟩

theorem store_frame_zero (c : Nat → Byte) (start length : Nat) :
    store c start (zeros length) = (Frame.zero start length).apply c := by
  funext i
  unfold Frame.apply
  by_cases h : (Frame.zero start length).Covers i
  · rw [if_pos h]
    obtain ⟨h1, h2⟩ := h
    simp only [Frame.start, Frame.length] at h1 h2
    rw [store_inside _ _ _ _ h1 (by simpa [zeros] using h2)]
    simp [zeros, Frame.byte]
  · rw [if_neg h]
    apply store_outside
    simpa [zeros, Frame.Covers, Frame.start, Frame.length] using h

theorem store_frame_data (c : Nat → Byte) (start : Nat) (d : Bytes) :
    store c start d = (Frame.data start d).apply c := by
  funext i
  unfold Frame.apply
  by_cases h : (Frame.data start d).Covers i
  · rw [if_pos h]
    unfold store
    rw [if_pos (show start ≤ i ∧ i < start + d.length from h)]
    rfl
  · rw [if_neg h]
    exact store_outside _ _ _ _ h

theorem clientZero_spec {σ : Type} {S : Server σ} (L : Lawful S.B) (hS : S.Proper)
    {reliable : Prop} (start length : Nat) (hl : 0 < length) (w : World σ) (hi : L.Inv w.srv)
    (hgd : reliable → ∀ n ∈ w.nets, n.Good)
    {r : Except Err Nat} {w' : World σ} (h : clientZero S start length w = (r, w')) :
    (∀ n, r = .ok n → L.content w'.srv = (Frame.zero start length).apply (L.content w.srv) ∧
      start + length ≤ S.ticketSize ∧
      (w.client.canFlush = false → L.durable w'.srv = L.content w'.srv)) ∧
    (∀ e, r = .error e → MayFail L reliable (start + length)) := by
  unfold clientZero at h
  obtain ⟨h1, h2, h3⟩ := zero_spec (reliable := reliable) L hS length hl (seek w start).2 hi hgd h
  refine ⟨fun n hn => ?_, fun e he => (h3 e he).2.1⟩
  obtain ⟨a1, a2, a3, a4, a5⟩ := h2 n hn
  exact ⟨by rw [a4, ← store_frame_zero]; rfl, a3, a5⟩

/-- The bytes that `read_from` gets from the standard input. -/
theorem readerBody_stdin (step : Nat) (hstep : 0 < step) (todo : Nat) : ∀ (i : Stdin) r b i',
    readerBody stdin step todo i = (r, b, i') →
    b.length ≤ todo ∧ (∀ x ∈ i'.calls, x ∈ i.calls) ∧
    (r = .ok () → todo ≤ i.data.length ∧ b = i.data.take todo ∧ i'.data = i.data.drop todo) ∧
    (∀ e, r = .error e → External e ∧ (i.data.length < todo ∨ none ∈ i.calls)) := by
  induction todo using Nat.strongRecOn with
  | ind todo ih =>
    intro i r b i' h
    unfold readerBody at h
    by_cases h0 : todo = 0
    · rw [dif_pos h0] at h
      simp only [Prod.mk.injEq] at h
      obtain ⟨rfl, rfl, rfl⟩ := h
      subst h0
      exact ⟨Nat.zero_le _, fun _ h => h, fun _ => ⟨Nat.zero_le _, by simp, by simp⟩, by simp⟩
    · rw [dif_neg h0] at h
      have hsub : ∀ x ∈ i.calls.tail, x ∈ i.calls := fun x hx => List.mem_of_mem_tail hx
      cases hc : i.calls.headD (some (min todo step)) with
      | none =>
        have hx : stdin.readinto i (min todo step) =
            (.error (.os "EIO"), { i with calls := i.calls.tail }) := by
          show Stdin.readinto i _ = _
          unfold Stdin.readinto
          rw [hc]
        rw [hx] at h
        simp only [Prod.mk.injEq] at h
        obtain ⟨rfl, rfl, rfl⟩ := h
        refine ⟨Nat.zero_le _, hsub, by simp, ?_⟩
        rintro e ⟨⟩
        refine ⟨trivial, .inr ?_⟩
        cases hl : i.calls with
        | nil => rw [hl] at hc; simp at hc
        | cons a t => rw [hl] at hc; simp only [List.headD_cons] at hc; rw [hc]; simp
      | some k =>
        generalize hm : min (min todo step) (k + 1) = m at *
        have hx : stdin.readinto i (min todo step) =
            (.ok (i.data.take m), ⟨i.data.drop m, i.calls.tail⟩) := by
          show Stdin.readinto i _ = _
          unfold Stdin.readinto
          rw [hc]
          simp only [hm]
        rw [hx] at h
        simp only at h
        have hmpos : 0 < m := by omega
        have hmt : m ≤ todo := by omega
        by_cases hd : (i.data.take m).length = 0
        · rw [dif_pos hd] at h
          simp only [Prod.mk.injEq] at h
          obtain ⟨rfl, rfl, rfl⟩ := h
          refine ⟨Nat.zero_le _, hsub, by simp, ?_⟩
          rintro e ⟨⟩
          refine ⟨trivial, .inl ?_⟩
          rw [List.length_take] at hd
          omega
        · rw [dif_neg hd] at h
          cases hy : readerBody stdin step (todo - (i.data.take m).length)
              ⟨i.data.drop m, i.calls.tail⟩ with
          | mk r2 x2 =>
          obtain ⟨b2, i2⟩ := x2
          rw [hy] at h
          simp only [Prod.mk.injEq] at h
          obtain ⟨rfl, rfl, rfl⟩ := h
          obtain ⟨g1, g2, g3, g4⟩ := ih (todo - (i.data.take m).length) (by omega) _ _ _ _ hy
          rw [List.length_take] at g1 g3 g4 hd
          refine ⟨?_, fun x hx => hsub x (g2 x hx), ?_, ?_⟩
          · rw [List.length_append, List.length_take]
            omega
          · intro hr
            obtain ⟨a1, a2, a3⟩ := g3 hr
            simp only [List.length_drop] at a1 a2 a3
            have hmi : min m i.data.length = m := by omega
            rw [hmi] at a1 a2 a3
            refine ⟨by omega, ?_, ?_⟩
            · rw [a2, ← List.take_add]
              congr 1; omega
            · rw [a3, List.drop_drop]
              congr 1; omega
          · intro e he
            obtain ⟨a1, a2⟩ := g4 e he
            refine ⟨a1, ?_⟩
            simp only [List.length_drop] at a2
            rcases a2 with a2 | a2
            · exact .inl (by omega)
            · exact .inr (hsub _ a2)

theorem clientReadFrom_kept {σ : Type} {S : Server σ} (L : Lawful S.B) (hS : S.Proper)
    (step : Nat) (hstep : 0 < step) (start length : Nat) (w : World σ) (i : Stdin)
    (hi : L.Inv w.srv) {r : Except Err Nat} {w' : World σ} {i' : Stdin}
    (h : clientReadFrom S step start length w i = (r, w', i')) :
    Kept L w w' ∧ (∀ x ∈ i'.calls, x ∈ i.calls) ∧
    (∀ j, ¬ InRange start length j → L.content w'.srv j = L.content w.srv j) ∧
    (∀ n, r = .ok n → length ≤ i.data.length ∧ i'.data = i.data.drop length) ∧
    (∀ e, r = .error e → External e) := by
  unfold clientReadFrom readFrom at h
  cases hx : readerBody stdin step length i with
  | mk r1 x1 =>
  obtain ⟨b, i1⟩ := x1
  obtain ⟨g1, g2, g3, g4⟩ := readerBody_stdin step hstep length i _ _ _ hx
  rw [hx] at h
  have hi1 : L.Inv (seek w start).2.srv := hi
  cases r1 with
  | error e =>
    simp only [Prod.mk.injEq] at h
    obtain ⟨rfl, rfl, rfl⟩ := h
    by_cases h0 : 0 < length
    · cases hy : putRequest S length b (seek w start).2 with
      | mk r2 w2 =>
      obtain ⟨a1, a2, -⟩ := putRequest_spec L hS length h0 b g1 _ hi1 hy
      refine ⟨⟨a1.inv, fun n hn => ?_, a1.size_ge, by rw [a1.client]; rfl, by rw [a1.client]; rfl⟩, g2, a2, by simp, ?_⟩
      · rw [a1.nets] at hn
        exact List.mem_of_mem_tail hn
      · rintro e' ⟨⟩
        exact (g4 e rfl).1
    · have h0' : length = 0 := by omega
      subst h0'
      rw [putRequest_empty]
      refine ⟨⟨hi, fun n hn => List.mem_of_mem_tail hn, Nat.le_refl _, rfl, rfl⟩, g2, fun _ _ => rfl, by simp, ?_⟩
      rintro e' ⟨⟩
      exact (g4 e rfl).1
  | ok u =>
    obtain ⟨b1, b2, b3⟩ := g3 rfl
    cases hy : putResult length (putRequest S length b (seek w start).2) with
    | mk r2 w2 =>
    simp only [hy, Prod.mk.injEq] at h
    obtain ⟨rfl, rfl, rfl⟩ := h
    by_cases h0 : 0 < length
    · obtain ⟨h1, h2, h3⟩ := putResult_spec (reliable := False) L hS length h0 b g1 _ hi1
        (fun h => h.elim) hy
      cases r2 with
      | error e =>
        obtain ⟨a1, a2, a3, a4⟩ := h3 e rfl
        refine ⟨.of_seek (.of_after h1 (by rw [a3]) (by rw [a3])), g2, a4, by simp, ?_⟩
        rintro e' ⟨⟩
        exact a1
      | ok n =>
        obtain ⟨a1, a2, a3, a4, a5, a6⟩ := h2 n rfl
        refine ⟨.of_seek (.of_after h1 (by rw [a3]) (by rw [a3])), g2, ?_,
          fun _ _ => ⟨b1, b3⟩, by simp⟩
        intro j hj
        rw [a5]
        apply store_outside
        rw [a2]
        exact hj
    · have h0' : length = 0 := by omega
      subst h0'
      obtain ⟨h1, h2, h3⟩ := putResult_empty L _ (seek w start).2 hi1 hy
      exact ⟨⟨h1.inv, h1.nets, h1.size_ge, h1.canFlush, h1.size⟩, g2, fun _ _ => by rw [h2]; rfl,
        fun _ _ => ⟨b1, b3⟩, h3⟩

theorem clientReadFrom_spec {σ : Type} {S : Server σ} (L : Lawful S.B) (hS : S.Proper)
    {reliable : Prop} (step : Nat) (hstep : 0 < step) (start length : Nat) (hl : 0 < length)
    (w : World σ) (i : Stdin) (hi : L.Inv w.srv) (hgd : reliable → ∀ n ∈ w.nets, n.Good)
    {r : Except Err Nat} {w' : World σ} {i' : Stdin}
    (h : clientReadFrom S step start length w i = (r, w', i')) :
    (∀ n, r = .ok n →
      L.content w'.srv = (Frame.data start (i.data.take length)).apply (L.content w.srv) ∧
      start + length ≤ S.ticketSize ∧
      (w.client.canFlush = false → L.durable w'.srv = L.content w'.srv)) ∧
    (∀ e, r = .error e → i.data.length < length ∨ none ∈ i.calls ∨
      MayFail L reliable (start + length)) := by
  unfold clientReadFrom readFrom at h
  cases hx : readerBody stdin step length i with
  | mk r1 x1 =>
  obtain ⟨b, i1⟩ := x1
  obtain ⟨g1, g2, g3, g4⟩ := readerBody_stdin step hstep length i _ _ _ hx
  rw [hx] at h
  have hi1 : L.Inv (seek w start).2.srv := hi
  cases r1 with
  | error e =>
    simp only [Prod.mk.injEq] at h
    obtain ⟨rfl, rfl, rfl⟩ := h
    refine ⟨by simp, ?_⟩
    rintro e' ⟨⟩
    rcases (g4 e rfl).2 with h | h
    · exact .inl h
    · exact .inr (.inl h)
  | ok u =>
    obtain ⟨b1, b2, b3⟩ := g3 rfl
    cases hy : putResult length (putRequest S length b (seek w start).2) with
    | mk r2 w2 =>
    simp only [hy, Prod.mk.injEq] at h
    obtain ⟨rfl, rfl, rfl⟩ := h
    obtain ⟨h1, h2, h3⟩ := putResult_spec (reliable := reliable) L hS length hl b g1 _ hi1 hgd hy
    refine ⟨fun n hn => ?_, fun e he => ?_⟩
    · obtain ⟨a1, a2, a3, a4, a5, a6⟩ := h2 n hn
      refine ⟨?_, a4, a6⟩
      rw [a5, ← b2, ← store_frame_data]
      rfl
    · have hbl : b.length = length := by rw [b2, List.length_take]; omega
      exact .inr (.inr ((h3 e he).2.1 hbl))

end Imageio.SparseStream
