import Verif.Lemmas.SparseRestore

/-!
Restoring all the frames of a sparse stream, or of a part of it.
-/
namespace Imageio.SparseStream
open HttpBackend Spec Spec.Sparse

theorem Stdin.read_cases (i : Stdin) (n : Nat) :
    (none ∈ i.calls ∧ i.read n = (.error (.os "EIO"), { i with calls := i.calls.tail })) ∨
    i.read n = (.ok (i.data.take n), ⟨i.data.drop n, i.calls.tail⟩) := by
  unfold Stdin.read
  cases hc : i.calls.headD (some n) with
  | none =>
    refine .inl ⟨?_, rfl⟩
    cases hl : i.calls with
    | nil => rw [hl] at hc; simp at hc
    | cons a t => rw [hl] at hc; simp only [List.headD_cons] at hc; rw [hc]; simp
  | some k => exact .inr rfl

theorem tail_sub {i : Stdin} : ∀ x ∈ i.calls.tail, x ∈ i.calls := fun _ h => List.mem_of_mem_tail h

theorem prefix_drop {a b c : Bytes} (h : a <+: b ++ c) : a.drop b.length <+: c := by
  obtain ⟨t, ht⟩ := h
  have := congrArg (List.drop b.length) ht
  rw [List.drop_append, List.drop_left] at this
  exact ⟨_, this⟩

theorem prefix_take {a b c : Bytes} (h : a <+: b ++ c) : a.take b.length = b.take a.length := by
  have h1 : a = (b ++ c).take a.length := (List.prefix_iff_eq_take.1 h)
  conv => lhs; rw [h1]
  rw [List.take_take, List.take_append_of_le_length (Nat.min_le_left _ _)]
  by_cases hl : b.length ≤ a.length
  · rw [Nat.min_eq_left hl, List.take_length, List.take_of_length_le hl]
  · rw [Nat.min_eq_right (by omega)]

/-- Reading a header, or a part of it at the end of the input. -/
theorem read_header {kind : String} {start length : Nat} {h rest : Bytes}
    (hk : kind.toUTF8.toList.length = 4) (hs : (32 : Byte) ∉ kind.toUTF8.toList)
    (hh : Header kind start length h) (i : Stdin) (hp : i.data <+: h ++ rest)
    {r : Except Err (Bytes × Int × Int)} {i1 : Stdin} (hr : readFrame i = (r, i1)) :
    (∀ x ∈ i1.calls, x ∈ i.calls) ∧
    (∀ e, r = .error e → External e ∧ (none ∈ i.calls ∨ i.data.length < 40)) ∧
    (∀ x, r = .ok x → i1.data = i.data.drop 40 ∧ i1.data <+: rest ∧
      ∃ m, m ≤ length ∧ x = (kind.toUTF8.toList, (start : Int), (m : Int)) ∧
      (40 ≤ i.data.length → m = length)) := by
  have hlen := header_length hk hh
  unfold readFrame at hr
  rw [frameLen_eq] at hr
  rcases Stdin.read_cases i 40 with ⟨h1, h2⟩ | h2
  · rw [h2] at hr
    cases hr
    refine ⟨tail_sub, ?_, by simp⟩
    rintro e ⟨⟩
    exact ⟨trivial, .inl h1⟩
  · rw [h2] at hr
    simp only [Prod.mk.injEq] at hr
    obtain ⟨hr, rfl⟩ := hr
    have ht : i.data.take 40 = h.take i.data.length := by rw [← hlen]; exact prefix_take hp
    have hd : i.data.drop 40 <+: rest := by rw [← hlen]; exact prefix_drop hp
    rw [ht] at hr
    refine ⟨tail_sub, ?_, ?_⟩
    · intro e he
      subst he
      by_cases h40 : 40 ≤ i.data.length
      · rw [List.take_of_length_le (by omega), parse_header hk hs hh] at hr
        cases hr
      · refine ⟨?_, .inr (by omega)⟩
        rcases parse_take hk hs hh i.data.length with ⟨x, hx⟩ | ⟨m, -, hx, -⟩
        · rw [hx] at hr; cases hr; trivial
        · rw [hx] at hr; cases hr
    · intro x hx
      subst hx
      refine ⟨rfl, hd, ?_⟩
      rcases parse_take hk hs hh i.data.length with ⟨x, hx⟩ | ⟨m, h3, hx, h4⟩
      · rw [hx] at hr; cases hr
      · rw [hx] at hr; cases hr
        exact ⟨m, h3, rfl, h4⟩

theorem readTerm_spec {i i' : Stdin} {r : Except Err Unit} (h : readTerm i = (r, i')) :
    (∀ x ∈ i'.calls, x ∈ i.calls) ∧
    (r = .ok () → TERM <+: i.data ∧ i'.data = i.data.drop 2) ∧
    (∀ e, r = .error e → External e ∧ (none ∈ i.calls ∨ ¬ TERM <+: i.data)) := by
  unfold readTerm at h
  rcases Stdin.read_cases i TERM.length with ⟨h1, h2⟩ | h2
  · rw [h2] at h
    cases h
    refine ⟨tail_sub, by simp, ?_⟩
    rintro e ⟨⟩
    exact ⟨trivial, .inl h1⟩
  · rw [h2] at h
    simp only at h
    split at h
    · rename_i ht
      cases h
      refine ⟨tail_sub, fun _ => ⟨?_, rfl⟩, by simp⟩
      rw [← ht]
      exact List.take_prefix _ _
    · rename_i ht
      cases h
      refine ⟨tail_sub, by simp, ?_⟩
      rintro e ⟨⟩
      refine ⟨trivial, .inr fun hp => ht ?_⟩
      exact (List.prefix_iff_eq_take.1 hp).symm

theorem restore_empty {σ : Type} (S : Server σ) (step : Nat) (w : World σ) (i : Stdin)
    (h : i.data = []) : ∃ e i', restoreFrames S step w i = (.error e, w, i') ∧ External e ∧
      ∀ x ∈ i'.calls, x ∈ i.calls := by
  have hr : ∃ e i', readFrame i = (.error e, i') ∧ External e ∧ ∀ x ∈ i'.calls, x ∈ i.calls := by
    unfold readFrame
    rcases Stdin.read_cases i frameLen with ⟨h1, h2⟩ | h2
    · rw [h2]
      exact ⟨_, _, rfl, trivial, tail_sub⟩
    · rw [h2, h]
      exact ⟨.exception "ValueError", ⟨List.drop frameLen [], i.calls.tail⟩, rfl, trivial, tail_sub⟩
  obtain ⟨e, i', hr, he, hs⟩ := hr
  refine ⟨e, i', ?_, he, hs⟩
  rw [restoreFrames]
  split
  · rename_i h1
    rw [hr] at h1
    cases h1
    rfl
  · rename_i h1
    rw [hr] at h1
    cases h1

theorem zero_ne_data : ZERO ≠ DATA := by decide
theorem stop_ne_zero : STOP ≠ ZERO := by decide
theorem stop_ne_data : STOP ≠ DATA := by decide

/-- What restoring frames does. -/
structure Restored {σ : Type} {S : Server σ} (L : Lawful S.B) (reliable : Prop) (fs : List Frame)
    (s : Bytes) (w : World σ) (i : Stdin) (r : Except Err Unit) (w' : World σ) (i' : Stdin) :
    Prop where
  kept : Kept L w w'
  calls : ∀ x ∈ i'.calls, x ∈ i.calls
  outside : ∀ j, (∀ f ∈ fs, ¬ f.Covers j) → L.content w'.srv j = L.content w.srv j
  ok : r = .ok () → L.content w'.srv = applyAll fs (L.content w.srv) ∧
    (w.client.canFlush = false → fs ≠ [] → L.durable w'.srv = L.content w'.srv) ∧
    i'.data = i.data.drop s.length ∧ ∀ f ∈ fs, f.start + f.length ≤ S.ticketSize
  error : ∀ e, r = .error e → External e ∧ (s <+: i.data → none ∉ i.calls →
    ∃ f ∈ fs, MayFail L reliable (f.start + f.length))

/-- One frame, followed by others. -/
theorem Restored.cons {σ : Type} {S : Server σ} {L : Lawful S.B} {reliable : Prop}
    {f : Frame} {fs : List Frame} {p rest : Bytes} {w w1 w' : World σ} {i i1 i' : Stdin}
    {r : Except Err Unit} (hk : Kept L w w1) (hc : ∀ x ∈ i1.calls, x ∈ i.calls)
    (hd : i1.data = i.data.drop p.length)
    (happ : L.content w1.srv = f.apply (L.content w.srv))
    (hin : f.start + f.length ≤ S.ticketSize)
    (hdur : w.client.canFlush = false → L.durable w1.srv = L.content w1.srv)
    (hkeep : fs = [] → r = .ok () → w'.srv = w1.srv)
    (h : Restored L reliable fs rest w1 i1 r w' i') :
    Restored L reliable (f :: fs) (p ++ rest) w i r w' i' where
  kept := hk.trans h.kept
  calls := fun x hx => hc x (h.calls x hx)
  outside := by
    intro j hj
    rw [h.outside j (fun g hg => hj g (by simp [hg])), happ]
    unfold Frame.apply
    rw [if_neg (hj f (by simp))]
  ok := by
    intro hr
    obtain ⟨h1, h2, h3, h4⟩ := h.ok hr
    refine ⟨?_, ?_, ?_, ?_⟩
    · rw [h1, happ]; rfl
    · intro hf _
      by_cases hfs : fs = []
      · rw [hkeep hfs hr]
        exact hdur hf
      · exact h2 (by rw [hk.canFlush]; exact hf) hfs
    · rw [h3, hd, List.drop_drop, List.length_append]
    · intro g hg
      rcases List.mem_cons.1 hg with rfl | hg
      · exact hin
      · exact h4 g hg
  error := by
    intro e he
    obtain ⟨h1, h2⟩ := h.error e he
    refine ⟨h1, fun hp hn => ?_⟩
    obtain ⟨t, ht⟩ := hp
    have hp1 : rest <+: i1.data := by
      rw [hd, ← ht, List.append_assoc, List.drop_left]
      exact ⟨t, rfl⟩
    obtain ⟨g, hg, hm⟩ := h2 hp1 (fun h => hn (hc _ h))
    exact ⟨g, by simp [hg], hm⟩

/-- A frame that failed, or that was cut. -/
theorem Restored.failed {σ : Type} {S : Server σ} {L : Lawful S.B} {reliable : Prop}
    {f : Frame} {fs : List Frame} {s : Bytes} {w w' : World σ} {i i' : Stdin} {e : Err}
    (hk : Kept L w w') (hc : ∀ x ∈ i'.calls, x ∈ i.calls)
    (ho : ∀ j, ¬ f.Covers j → L.content w'.srv j = L.content w.srv j) (he : External e)
    (hm : s <+: i.data → none ∉ i.calls → MayFail L reliable (f.start + f.length)) :
    Restored L reliable (f :: fs) s w i (.error e) w' i' where
  kept := hk
  calls := hc
  outside := fun j hj => ho j (hj f (by simp))
  ok := by simp
  error := by
    rintro e' ⟨⟩
    exact ⟨he, fun h1 h2 => ⟨f, by simp, hm h1 h2⟩⟩

theorem restore_stop {σ : Type} {S : Server σ} {step : Nat} {w w' : World σ} {i i' : Stdin}
    {h rest : Bytes} {a b : Nat} (hh : Header "stop" a b h) (hp : i.data <+: h ++ rest)
    {r : Except Err Unit} (hr : restoreFrames S step w i = (r, w', i')) :
    w' = w ∧ (∀ x ∈ i'.calls, x ∈ i.calls) ∧
    (r = .ok () → i'.data = i.data.drop 40) ∧
    (∀ e, r = .error e → External e ∧ (none ∈ i.calls ∨ i.data.length < 40)) := by
  have hk : ("stop".toUTF8.toList).length = 4 := by rw [kind_stop]; rfl
  have hs : (32 : Byte) ∉ "stop".toUTF8.toList := by rw [kind_stop]; decide
  rw [restoreFrames] at hr
  split at hr
  · rename_i x i1 h1
    obtain ⟨a1, a2, -⟩ := read_header hk hs hh i hp h1
    simp only [Prod.mk.injEq] at hr
    obtain ⟨rfl, rfl, rfl⟩ := hr
    refine ⟨rfl, a1, by simp, ?_⟩
    rintro e ⟨⟩
    exact a2 _ rfl
  · rename_i kind start length i1 h1
    obtain ⟨a1, -, a3⟩ := read_header hk hs hh i hp h1
    obtain ⟨b1, b2, m, b3, b4, -⟩ := a3 _ rfl
    rw [kind_stop] at b4
    simp only [Prod.mk.injEq] at b4
    obtain ⟨rfl, rfl, rfl⟩ := b4
    rw [if_neg stop_ne_zero, if_neg stop_ne_data, if_pos rfl] at hr
    simp only [Prod.mk.injEq] at hr
    obtain ⟨rfl, rfl, rfl⟩ := hr
    exact ⟨rfl, a1, fun _ => b1, by simp⟩

theorem restore_spec {σ : Type} {S : Server σ} (L : Lawful S.B) (hS : S.Proper) (reliable : Prop)
    (step : Nat) (hstep : 0 < step) {fs : List Frame} {s : Bytes} (hf : Frames fs s) :
    ∀ (w : World σ) (i : Stdin) (trail : Bytes), L.Inv w.srv →
    (reliable → ∀ n ∈ w.nets, n.Good) → i.data <+: s ++ trail → ∀ r w' i',
    restoreFrames S step w i = (r, w', i') →
    Restored L reliable fs s w i r w' i' ∧ (fs = [] → w' = w) := by
  induction hf with
  | stop hh =>
    intro w i trail hi hg hp r w' i' hr
    have hlen := header_length (kind := "stop") (by rw [kind_stop]; rfl) hh
    obtain ⟨rfl, h2, h3, h4⟩ := restore_stop hh hp hr
    refine ⟨⟨.refl hi, h2, fun _ _ => rfl, ?_, ?_⟩, fun _ => rfl⟩
    · intro h
      exact ⟨rfl, by simp, by rw [hlen]; exact h3 h, by simp⟩
    · intro e he
      obtain ⟨h5, h6⟩ := h4 e he
      refine ⟨h5, fun hp hn => ?_⟩
      rcases h6 with h6 | h6
      · exact absurd h6 hn
      · have := hp.length_le
        omega
  | @zero start length h rest fs hh hl _ ih =>
    intro w i trail hi hg hp r w' i' hr
    refine ⟨?_, by simp⟩
    have hk : ("zero".toUTF8.toList).length = 4 := by rw [kind_zero]; rfl
    have hs : (32 : Byte) ∉ "zero".toUTF8.toList := by rw [kind_zero]; decide
    have hlen := header_length hk hh
    rw [List.append_assoc] at hp
    have hshort : h ++ rest <+: i.data → 40 ≤ i.data.length := by
      intro hp
      have := hp.length_le
      rw [List.length_append] at this
      omega
    rw [restoreFrames] at hr
    split at hr
    · rename_i x i1 h1
      obtain ⟨a1, a2, -⟩ := read_header hk hs hh i hp h1
      simp only [Prod.mk.injEq] at hr
      obtain ⟨rfl, rfl, rfl⟩ := hr
      obtain ⟨b1, b2⟩ := a2 _ rfl
      refine .failed (.refl hi) a1 (fun _ _ => rfl) b1 (fun hp hn => ?_)
      rcases b2 with b2 | b2
      · exact absurd b2 hn
      · have := hshort hp
        omega
    · rename_i kind start' length' i1 h1
      obtain ⟨a1, -, a3⟩ := read_header hk hs hh i hp h1
      obtain ⟨b1, b2, m, b3, b4, b5⟩ := a3 _ rfl
      rw [kind_zero] at b4
      simp only [Prod.mk.injEq] at b4
      obtain ⟨rfl, rfl, rfl⟩ := b4
      rw [if_pos rfl, if_neg (by omega)] at hr
      simp only [Int.toNat_natCast] at hr
      have hcov : ∀ j, ¬ (Frame.zero start length).Covers j → ¬ InRange start m j := by
        intro j hj hin
        apply hj
        unfold InRange at hin
        simp only [Frame.Covers, Frame.start, Frame.length]
        omega
      split at hr
      · rename_i x w1 hz
        simp only [Prod.mk.injEq] at hr
        obtain ⟨rfl, rfl, rfl⟩ := hr
        obtain ⟨c1, c2, c3⟩ := clientZero_kept L hS _ _ _ hi hz
        refine .failed c1 a1 (fun j hj => c2 j (hcov j hj)) (c3 _ rfl) (fun hp hn => ?_)
        have := b5 (hshort hp)
        subst this
        exact (clientZero_spec (reliable := reliable) L hS _ _ hl _ hi hg hz).2 _ rfl
      · rename_i n w1 hz
        obtain ⟨c1, c2, -⟩ := clientZero_kept L hS _ _ _ hi hz
        by_cases h40 : 40 ≤ i.data.length
        · have := b5 h40
          subst this
          obtain ⟨d1, d2, d3⟩ := (clientZero_spec (reliable := reliable) L hS _ _ hl _ hi hg hz).1 _ rfl
          obtain ⟨ih1, ih2⟩ := ih w1 i1 trail c1.inv (fun hr n hn => hg hr n (c1.nets n hn)) b2 _ _ _ hr
          exact .cons (f := .zero start m) c1 a1 (by rw [hlen]; exact b1) d1 d2 d3
            (fun hfs _ => by rw [ih2 hfs]) ih1
        · have hempty : i1.data = [] := by
            rw [b1]
            exact List.drop_eq_nil_of_le (by omega)
          obtain ⟨e, i2, hr', he, hsub⟩ := restore_empty S step w1 i1 hempty
          rw [hr'] at hr
          simp only [Prod.mk.injEq] at hr
          obtain ⟨rfl, rfl, rfl⟩ := hr
          refine .failed c1 (fun x hx => a1 x (hsub x hx)) (fun j hj => c2 j (hcov j hj)) he (fun hp hn => ?_)
          exact absurd (hshort hp) h40
  | @data start bytes h rest fs hh hl _ ih =>
    intro w i trail hi hg hp r w' i' hr
    refine ⟨?_, by simp⟩
    have hk : ("data".toUTF8.toList).length = 4 := by rw [kind_data]; rfl
    have hs : (32 : Byte) ∉ "data".toUTF8.toList := by rw [kind_data]; decide
    have hlen := header_length hk hh
    have hp' : i.data <+: h ++ (bytes ++ (TERM ++ (rest ++ trail))) := by
      rw [crlf_eq] at hp
      simpa only [List.append_assoc] using hp
    rw [crlf_eq]
    have hshort : h ++ bytes ++ TERM ++ rest <+: i.data → 40 + bytes.length + 2 ≤ i.data.length := by
      intro hp
      have := hp.length_le
      simp only [List.length_append, hlen, TERM, List.length_cons, List.length_nil] at this
      omega
    have hdrop : ∀ k, k = 40 → h ++ bytes ++ TERM ++ rest <+: i.data →
        bytes ++ TERM <+: i.data.drop k := by
      rintro k rfl ⟨t, ht⟩
      rw [← ht, ← hlen]
      simp only [List.append_assoc, List.drop_left]
      exact ⟨rest ++ t, by simp⟩
    rw [restoreFrames] at hr
    split at hr
    · rename_i x i1 h1
      obtain ⟨a1, a2, -⟩ := read_header hk hs hh i hp' h1
      simp only [Prod.mk.injEq] at hr
      obtain ⟨rfl, rfl, rfl⟩ := hr
      obtain ⟨b1, b2⟩ := a2 _ rfl
      refine .failed (.refl hi) a1 (fun _ _ => rfl) b1 (fun hp hn => ?_)
      rcases b2 with b2 | b2
      · exact absurd b2 hn
      · have := hshort hp
        omega
    · rename_i kind start' length' i1 h1
      obtain ⟨a1, -, a3⟩ := read_header hk hs hh i hp' h1
      obtain ⟨b1, b2, m, b3, b4, b5⟩ := a3 _ rfl
      rw [kind_data] at b4
      simp only [Prod.mk.injEq] at b4
      obtain ⟨rfl, rfl, rfl⟩ := b4
      rw [if_neg zero_ne_data.symm, if_pos rfl, if_neg (by omega)] at hr
      simp only [Int.toNat_natCast] at hr
      have hcov : ∀ j, ¬ (Frame.data start bytes).Covers j → ¬ InRange start m j := by
        intro j hj hin
        apply hj
        unfold InRange at hin
        simp only [Frame.Covers, Frame.start, Frame.length]
        omega
      split at hr
      · rename_i x w1 i2 hz
        simp only [Prod.mk.injEq] at hr
        obtain ⟨rfl, rfl, rfl⟩ := hr
        obtain ⟨c1, c2, c3, -, c5⟩ := clientReadFrom_kept L hS step hstep _ _ _ _ hi hz
        refine .failed c1 (fun x hx => a1 x (c2 x hx)) (fun j hj => c3 j (hcov j hj)) (c5 _ rfl) (fun hp hn => ?_)
        have hb := hshort hp
        have := b5 (by omega)
        subst this
        rcases (clientReadFrom_spec (reliable := reliable) L hS step hstep _ _ hl _ _ hi hg hz).2 _ rfl with hx | hx | hx
        · rw [b1, List.length_drop] at hx
          omega
        · exact absurd (a1 _ hx) hn
        · exact hx
      · rename_i n w1 i2 hz
        obtain ⟨c1, c2, c3, c4, -⟩ := clientReadFrom_kept L hS step hstep _ _ _ _ hi hz
        obtain ⟨e1, e2⟩ := c4 _ rfl
        have hinb : ∀ (hp : h ++ bytes ++ TERM ++ rest <+: i.data), TERM <+: i2.data := by
          intro hp
          have hb := hshort hp
          have hm := b5 (by omega)
          subst hm
          have := hdrop 40 rfl hp
          rw [e2, b1]
          obtain ⟨t, ht⟩ := this
          rw [← ht, List.append_assoc, List.drop_left]
          exact ⟨t, rfl⟩
        split at hr
        · rename_i x i3 ht
          obtain ⟨f1, -, f3⟩ := readTerm_spec ht
          simp only [Prod.mk.injEq] at hr
          obtain ⟨rfl, rfl, rfl⟩ := hr
          obtain ⟨g1, g2⟩ := f3 _ rfl
          refine .failed c1 (fun x hx => a1 x (c2 x (f1 x hx))) (fun j hj => c3 j (hcov j hj)) g1 (fun hp hn => ?_)
          rcases g2 with g2 | g2
          · exact absurd (a1 _ (c2 _ g2)) hn
          · exact absurd (hinb hp) g2
        · rename_i i3 ht
          obtain ⟨f1, f2, -⟩ := readTerm_spec ht
          obtain ⟨f2, f3⟩ := f2 rfl
          have h40 : 40 ≤ i.data.length := by
            have := f2.length_le
            rw [e2, b1] at this
            simp only [TERM, List.length_cons, List.length_nil, List.length_drop] at this
            omega
          have := b5 h40
          subst this
          obtain ⟨d1, d2, d3⟩ := (clientReadFrom_spec (reliable := reliable) L hS step hstep _ _ hl _ _ hi hg hz).1 _ rfl
          have hbytes : i1.data.take bytes.length = bytes := by
            rw [prefix_take b2, List.take_of_length_le e1]
          rw [hbytes] at d1
          have hb3 : i3.data <+: rest ++ trail := by
            rw [f3, e2]
            exact prefix_drop (b := TERM) (prefix_drop b2)
          obtain ⟨ih1, ih2⟩ := ih w1 i3 trail c1.inv (fun hr n hn => hg hr n (c1.nets n hn)) hb3 _ _ _ hr
          refine .cons (f := .data start bytes) (p := h ++ bytes ++ TERM) c1
            (fun x hx => a1 x (c2 x (f1 x hx))) ?_ d1 d2 d3 (fun hfs _ => by rw [ih2 hfs]) ih1
          rw [f3, e2, b1, List.drop_drop, List.drop_drop]
          congr 1
          simp only [List.length_append, hlen, TERM, List.length_cons, List.length_nil]
          omega

end Imageio.SparseStream
