import Verif.Lemmas.SparseBackup
import Verif.Spec.LibvirtStream

/-!
Lemmas about copying a libvirt volume.
-/
namespace Imageio.LibvirtStream
open HttpBackend SparseStream Spec Spec.Sparse Spec.Volume Http Images Props

/-- What a part of the copy does: it changes only bytes from `lo` to `hi`, if it succeeds the
image is changed by `g`, if it fails there is a reason. -/
structure Step {σ : Type} {S : Server σ} (L : Lawful S.B) (P : Prop) (lo hi : Nat)
    (g : (Nat → Byte) → Nat → Byte) (some : Prop) (w : World σ) (r : Except Err Unit)
    (w' : World σ) : Prop where
  kept : Kept L w w'
  outside : ∀ j, ¬ (lo ≤ j ∧ j < hi) → L.content w'.srv j = L.content w.srv j
  done : r = .ok () → L.content w'.srv = g (L.content w.srv) ∧
    (w.client.canFlush = false → L.durable w.srv = L.content w.srv ∨ some →
      L.durable w'.srv = L.content w'.srv)
  failed : ∀ e, r = .error e → External e ∧ P

theorem Step.refl {σ : Type} {S : Server σ} {L : Lawful S.B} {P some : Prop} {lo hi : Nat}
    {w : World σ} (h : L.Inv w.srv) (hs : ¬ some) : Step L P lo hi id some w (.ok ()) w :=
  ⟨.refl h, fun _ _ => rfl, fun _ => ⟨rfl, fun _ h => h.elim id fun h => (hs h).elim⟩, nofun⟩

theorem Step.error {σ : Type} {S : Server σ} {L : Lawful S.B} {P some : Prop} {lo hi : Nat}
    {g : (Nat → Byte) → Nat → Byte} {w : World σ} (h : L.Inv w.srv) {e : Err} (he : External e)
    (hP : P) : Step L P lo hi g some w (.error e) w :=
  ⟨.refl h, fun _ _ => rfl, nofun, fun _ h => by cases h; exact ⟨he, hP⟩⟩

theorem Step.trans {σ : Type} {S : Server σ} {L : Lawful S.B} {P s1 s2 s : Prop}
    {lo1 hi1 lo2 hi2 lo hi : Nat} {g1 g2 g : (Nat → Byte) → Nat → Byte} {w w1 w2 : World σ}
    {r : Except Err Unit} (h1 : Step L P lo1 hi1 g1 s1 w (.ok ()) w1)
    (h2 : Step L P lo2 hi2 g2 s2 w1 r w2) (hlo1 : lo ≤ lo1) (hhi1 : hi1 ≤ hi) (hlo2 : lo ≤ lo2)
    (hhi2 : hi2 ≤ hi) (hs : s → s1 ∨ s2) (hg : ∀ c, g2 (g1 c) = g c) :
    Step L P lo hi g s w r w2 := by
  refine ⟨h1.kept.trans h2.kept, fun j hj => ?_, fun hr => ?_, h2.failed⟩
  · rw [h2.outside j (fun ⟨a, b⟩ => hj ⟨by omega, by omega⟩),
      h1.outside j (fun ⟨a, b⟩ => hj ⟨by omega, by omega⟩)]
  · obtain ⟨a1, a2⟩ := h1.done rfl
    obtain ⟨b1, b2⟩ := h2.done hr
    refine ⟨by rw [b1, a1, hg], fun hc hd => b2 (h1.kept.canFlush.trans hc) ?_⟩
    rcases hd with hd | hd
    · exact .inl (a2 hc (.inl hd))
    · rcases hs hd with h | h
      · exact .inl (a2 hc (.inr h))
      · exact .inr h

theorem Step.stop {σ : Type} {S : Server σ} {L : Lawful S.B} {P s1 s : Prop}
    {lo1 hi1 lo hi : Nat} {g1 g : (Nat → Byte) → Nat → Byte} {w w1 : World σ} {e : Err}
    (h1 : Step L P lo1 hi1 g1 s1 w (.error e) w1) (hlo1 : lo ≤ lo1) (hhi1 : hi1 ≤ hi) :
    Step L P lo hi g s w (.error e) w1 :=
  ⟨h1.kept, fun j hj => h1.outside j (fun ⟨a, b⟩ => hj ⟨by omega, by omega⟩), nofun, h1.failed⟩

theorem Step.wider {σ : Type} {S : Server σ} {L : Lawful S.B} {P s1 s : Prop}
    {lo1 hi1 lo hi : Nat} {g1 g : (Nat → Byte) → Nat → Byte} {w w1 : World σ}
    {r : Except Err Unit} (h1 : Step L P lo1 hi1 g1 s1 w r w1) (hlo1 : lo ≤ lo1) (hhi1 : hi1 ≤ hi)
    (hs : s → s1) (hg : ∀ c, g1 c = g c) : Step L P lo hi g s w r w1 :=
  ⟨h1.kept, fun j hj => h1.outside j (fun ⟨a, b⟩ => hj ⟨by omega, by omega⟩),
    fun hr => ⟨by rw [(h1.done hr).1, hg], fun hc hd => (h1.done hr).2 hc (hd.imp id hs)⟩, h1.failed⟩

theorem Step.thenError {σ : Type} {S : Server σ} {L : Lawful S.B} {P s1 s2 s : Prop}
    {lo1 hi1 lo2 hi2 lo hi : Nat} {g1 g2 g : (Nat → Byte) → Nat → Byte} {w w1 w2 : World σ}
    {e : Err} (h1 : Step L P lo1 hi1 g1 s1 w (.ok ()) w1)
    (h2 : Step L P lo2 hi2 g2 s2 w1 (.error e) w2) (hlo1 : lo ≤ lo1) (hhi1 : hi1 ≤ hi)
    (hlo2 : lo ≤ lo2) (hhi2 : hi2 ≤ hi) : Step L P lo hi g s w (.error e) w2 :=
  (h1.trans h2 (s := False) (g := fun c => g2 (g1 c)) hlo1 hhi1 hlo2 hhi2 (fun h => h.elim)
    (fun _ => rfl)).stop (Nat.le_refl _) (Nat.le_refl _)

/-! ### Frames -/

theorem clientZero_step {σ : Type} {S : Server σ} (L : Lawful S.B) (hS : S.Proper)
    {reliable P : Prop} (start length : Nat) (hl : 0 < length) (w : World σ) (hi : L.Inv w.srv)
    (hgd : reliable → ∀ n ∈ w.nets, n.Good) (hP : MayFail L reliable (start + length) → P)
    {r : Except Err Nat} {w' : World σ} (h : clientZero S start length w = (r, w')) :
    Step L P start (start + length) (Frame.zero start length).apply True w
      (r.map fun _ => ()) w' := by
  obtain ⟨a1, a2, a3⟩ := clientZero_kept L hS start length w hi h
  obtain ⟨b1, b2⟩ := clientZero_spec (reliable := reliable) L hS start length hl w hi hgd h
  refine ⟨a1, fun j hj => a2 j hj, fun hr => ?_, fun e he => ?_⟩
  · cases r with
    | error e => cases hr
    | ok n => exact ⟨(b1 n rfl).1, fun hc _ => (b1 n rfl).2.2 hc⟩
  · cases r with
    | ok n => cases he
    | error e' => cases he; exact ⟨a3 _ rfl, hP (b2 _ rfl)⟩

theorem clientWrite_step {σ : Type} {S : Server σ} (L : Lawful S.B) (hS : S.Proper)
    {reliable P : Prop} (start : Nat) (buf : Bytes) (hl : 0 < buf.length) (w : World σ)
    (hi : L.Inv w.srv) (hgd : reliable → ∀ n ∈ w.nets, n.Good) {n : Nat}
    (hn : w.client.size = some n) (hin : start + buf.length ≤ n)
    (hP : MayFail L reliable (start + buf.length) → P)
    {r : Except Err Unit} {w' : World σ} (h : clientWrite S start buf w = (r, w')) :
    Step L P start (start + buf.length) (Frame.data start buf).apply True w r w' := by
  unfold clientWrite HttpBackend.size at h
  rw [hn] at h
  simp only [gt_iff_lt] at h
  rw [if_neg (by omega)] at h
  unfold HttpBackend.write at h
  cases hx : putResult buf.length (putRequest S buf.length buf (seek w start).2) with
  | mk r1 w1 =>
  obtain ⟨h1, h2, h3⟩ := putResult_spec (reliable := reliable) L hS buf.length hl buf
    (Nat.le_refl _) (seek w start).2 hi hgd hx
  rw [hx] at h
  cases r1 with
  | error e =>
    cases h
    obtain ⟨a1, a2, a3, a4⟩ := h3 e rfl
    exact ⟨Kept.of_seek (Kept.of_after h1 (by rw [a3]) (by rw [a3])), fun j hj => a4 j hj, nofun,
      fun _ he => by cases he; exact ⟨a1, hP (a2 rfl)⟩⟩
  | ok k =>
    cases h
    obtain ⟨a1, a2, a3, a4, a5, a6⟩ := h2 k rfl
    have hc : L.content w'.srv = (Frame.data start buf).apply (L.content w.srv) := by
      rw [a5, ← store_frame_data]; rfl
    refine ⟨Kept.of_seek (Kept.of_after h1 (by rw [a3]) (by rw [a3])), fun j hj => ?_,
      fun _ => ⟨hc, fun hc _ => a6 hc⟩, nofun⟩
    rw [hc]
    exact if_neg hj

theorem copyFrame_data {σ : Type} {S : Server σ} (L : Lawful S.B) (hS : S.Proper)
    {reliable P : Prop} (start : Nat) (buf : Bytes) (hl : 0 < buf.length) (w : World σ)
    (hi : L.Inv w.srv) (hgd : reliable → ∀ n ∈ w.nets, n.Good) {n : Nat}
    (hn : w.client.size = some n) (hin : start + buf.length ≤ n)
    (hP : MayFail L reliable (start + buf.length) → P)
    {r : Except Err Unit} {w' : World σ} {k : Nat}
    (h : copyFrame S start k (some buf) w = (r, w')) :
    Step L P start (start + buf.length) (Frame.data start buf).apply True w r w' := by
  cases buf with
  | nil => simp at hl
  | cons b d => exact clientWrite_step L hS start (b :: d) hl w hi hgd hn hin hP h

theorem copyFrame_hole {σ : Type} {S : Server σ} (L : Lawful S.B) (hS : S.Proper)
    {reliable P : Prop} (start length : Nat) (hl : 0 < length) (w : World σ) (hi : L.Inv w.srv)
    (hgd : reliable → ∀ n ∈ w.nets, n.Good) (hP : MayFail L reliable (start + length) → P)
    {r : Except Err Unit} {w' : World σ} (h : copyFrame S start length none w = (r, w')) :
    Step L P start (start + length) (Frame.zero start length).apply True w r w' := by
  unfold copyFrame at h
  cases hx : clientZero S start length w with
  | mk r1 w1 =>
  have := clientZero_step (P := P) L hS start length hl w hi hgd hP hx
  rw [hx] at h
  cases r1 <;> (cases h; exact this)

theorem apply_empty (start : Nat) (c : Nat → Byte) : (Frame.data start []).apply c = c := by
  funext i
  exact if_neg (by simp only [Frame.Covers, Frame.start, Frame.length, List.length_nil]; omega)

theorem yieldBuffer_step {σ : Type} {S : Server σ} (L : Lawful S.B) (hS : S.Proper)
    {reliable P : Prop} (start : Nat) (buf : Bytes) (w : World σ)
    (hi : L.Inv w.srv) (hgd : reliable → ∀ n ∈ w.nets, n.Good) {n : Nat}
    (hn : w.client.size = some n) (hin : start + buf.length ≤ n)
    (hP : MayFail L reliable (start + buf.length) → P)
    {r : Except Err Unit} {w' : World σ} (h : yieldBuffer S start buf w = (r, w')) :
    Step L P start (start + buf.length) (Frame.data start buf).apply (0 < buf.length) w r w' := by
  unfold yieldBuffer at h
  by_cases h0 : buf.length = 0
  · rw [if_neg (by simpa using h0)] at h
    cases h
    have hb : buf = [] := List.length_eq_zero_iff.1 h0
    subst hb
    exact (Step.refl (some := 0 < ([] : Bytes).length) hi (by simp)).wider (lo1 := start)
      (hi1 := start + ([] : Bytes).length) (Nat.le_refl _) (Nat.le_refl _) id
      (fun c => (apply_empty _ _).symm)
  · rw [if_pos h0] at h
    exact (copyFrame_data L hS start buf (by omega) w hi hgd hn hin hP h).wider (Nat.le_refl _)
      (Nat.le_refl _) (fun _ => trivial) (fun _ => rfl)

/-! ### The loop -/

/-- The frames the code writes for the parts of a volume: the offset is not moved by a hole. -/
def effect : Nat → List Seg → List Frame
  | _, [] => []
  | off, .data d :: t => .data off d :: effect (off + d.length) t
  | off, .hole n :: t => .zero off n :: effect off t

theorem apply_append (start : Nat) (a b : Bytes) (c : Nat → Byte) :
    (Frame.data (start + a.length) b).apply ((Frame.data start a).apply c) =
    (Frame.data start (a ++ b)).apply c := by
  rw [← store_frame_data, ← store_frame_data, ← store_frame_data]
  funext i
  unfold store
  by_cases h1 : start + a.length ≤ i ∧ i < start + a.length + b.length
  · rw [if_pos h1, if_pos (by rw [List.length_append]; omega)]
    unfold byteAt
    rw [List.getD_eq_getElem?_getD, List.getD_eq_getElem?_getD, List.getElem?_append_right (by omega)]
    congr 2; omega
  · rw [if_neg h1]
    by_cases h2 : start ≤ i ∧ i < start + a.length
    · rw [if_pos h2, if_pos (by rw [List.length_append]; omega)]
      unfold byteAt
      rw [List.getD_eq_getElem?_getD, List.getD_eq_getElem?_getD, List.getElem?_append_left (by omega)]
    · rw [if_neg h2, if_neg (by rw [List.length_append]; omega)]

/-- The calls of a stream do what they are asked to. -/
def Good (s : Stream) : Prop := ∀ c ∈ s.calls, c ≠ .fail ∧ c ≠ .block

theorem Stream.recv_cases {s s' : Stream} {n : Nat} {r : Except Err Received} (hv : Valid s.segs)
    (hn : 0 < n) (h : s.recv n = (r, s')) :
    s'.calls = s.calls.tail ∧
    ((∃ e, r = .error e ∧ External e ∧ ¬ Good s) ∨ (r = .ok .block ∧ ¬ Good s) ∨
     (s.segs = [] ∧ r = .ok (.bytes []) ∧ s'.segs = []) ∨
     (∃ m t, s.segs = .hole m :: t ∧ r = .ok .hole ∧ s'.segs = .hole m :: t) ∨
     (∃ b d rest t, s.segs = .data (b :: d ++ rest) :: t ∧ r = .ok (.bytes (b :: d)) ∧
       s'.segs = (if rest = [] then t else .data rest :: t) ∧ (b :: d).length ≤ n)) := by
  have hmem : ∀ {c}, c = Call.fail ∨ c = Call.block → s.calls.headD (.most n) = c → ¬ Good s := by
    intro c hc hh hg
    cases hcs : s.calls with
    | nil => rw [hcs] at hh; rcases hc with rfl | rfl <;> cases hh
    | cons x xs =>
      rw [hcs] at hh
      have := hg x (by rw [hcs]; exact List.mem_cons_self)
      cases hh
      rcases hc with rfl | rfl
      · exact this.1 rfl
      · exact this.2 rfl
  unfold Stream.recv at h
  simp only at h
  split at h
  · rename_i hc
    cases h
    exact ⟨rfl, .inl ⟨_, rfl, by trivial, hmem (.inl rfl) hc⟩⟩
  · rename_i hc
    cases h
    exact ⟨rfl, .inr (.inl ⟨rfl, hmem (.inr rfl) hc⟩)⟩
  · rename_i k hc
    split at h
    · rename_i hs
      cases h
      exact ⟨rfl, .inr (.inr (.inl ⟨hs, rfl, rfl⟩))⟩
    · rename_i m t hs
      cases h
      exact ⟨rfl, .inr (.inr (.inr (.inl ⟨m, t, hs, rfl, rfl⟩)))⟩
    · rename_i d t hs
      cases h
      have hd : 0 < d.length := hv (.data d) (by rw [hs]; exact List.mem_cons_self)
      refine ⟨rfl, .inr (.inr (.inr (.inr ?_)))⟩
      cases ht : d.take (min n (k + 1)) with
      | nil =>
        have := congrArg List.length ht
        rw [List.length_take] at this
        simp only [List.length_nil] at this
        omega
      | cons b x =>
        refine ⟨b, x, d.drop (min n (k + 1)), t, ?_, rfl, ?_, ?_⟩
        · rw [hs, ← ht, List.take_append_drop]
        · by_cases hle : d.length ≤ min n (k + 1)
          · rw [if_pos hle, if_pos (List.drop_eq_nil_of_le hle)]
          · rw [if_neg hle, if_neg]
            intro hz
            have := List.drop_eq_nil_iff.1 hz
            omega
        · rw [← ht, List.length_take]; omega

theorem Stream.recvHole_cases {s s' : Stream} {m : Nat} {t : List Seg} {r : Except Err Nat}
    (hs : s.segs = .hole m :: t) (h : s.recvHole = (r, s')) :
    s'.calls = s.calls.tail ∧
    ((∃ e, r = .error e ∧ External e ∧ ¬ Good s) ∨ (r = .ok m ∧ s'.segs = t)) := by
  unfold Stream.recvHole at h
  split at h
  · rename_i hc
    cases h
    refine ⟨rfl, .inl ⟨_, rfl, by trivial, fun hg => ?_⟩⟩
    cases hcs : s.calls with
    | nil => rw [hcs] at hc; cases hc
    | cons x xs =>
      rw [hcs] at hc
      exact (hg x (by rw [hcs]; exact List.mem_cons_self)).1 hc
  · rw [hs] at h
    cases h
    exact ⟨rfl, .inr ⟨rfl, rfl⟩⟩

theorem good_tail {s s' : Stream} (h : s'.calls = s.calls.tail) (hg : ¬ Good s') : ¬ Good s :=
  fun hs => hg fun c hc => hs c (by rw [h] at hc; exact List.mem_of_mem_tail hc)

theorem length_pos (segs : List Seg) (hv : Valid segs) (h : segs ≠ []) : 0 < volumeLength segs := by
  cases segs with
  | nil => exact absurd rfl h
  | cons x t =>
    have := hv x List.mem_cons_self
    simp only [volumeLength, List.map_cons, List.sum_cons]
    omega

theorem copyLoop_step {σ : Type} {S : Server σ} (L : Lawful S.B) (hS : S.Proper)
    {reliable P : Prop} (size : Nat) {N : Nat} (hP : ∀ k, k ≤ N → MayFail L reliable k → P) :
    ∀ (left : Nat) (offset : Nat) (buf : Bytes) (s : Stream) (w : World σ), s.left = left →
    buf.length < size → Valid s.segs → offset + buf.length + volumeLength s.segs ≤ N →
    (¬ Good s → P) → L.Inv w.srv → (reliable → ∀ n ∈ w.nets, n.Good) → w.client.size = some N →
    ∀ r w' s', copyLoop S size offset buf s w = (r, w', s') →
    Step L P offset (offset + buf.length + volumeLength s.segs)
      (applyAll (effect offset (.data buf :: s.segs))) (0 < buf.length + volumeLength s.segs)
      w r w' := by
  intro left
  induction left using Nat.strongRecOn with
  | ind left ih =>
  intro offset buf s w hleft hbuf hv hN hbad hi hgd hsz r w' s' h
  unfold copyLoop at h
  cases hx : s.recv (size - buf.length) with
  | mk r1 s1 =>
  obtain ⟨c1, hcase⟩ := Stream.recv_cases hv (by omega) hx
  rcases hcase with ⟨e, rfl, he, hg⟩ | ⟨rfl, hg⟩ | ⟨hs, rfl, hs1⟩ | ⟨m, t, hs, rfl, hs1⟩ |
      ⟨b, d, rest, t, hs, rfl, hs1, hlen⟩
  · split at h <;> rename_i heq <;> rw [hx] at heq <;> cases heq
    cases h
    exact .error hi he (hbad hg)
  · split at h <;> rename_i heq <;> rw [hx] at heq <;> cases heq
    cases h
    exact .error hi (by trivial) (hbad hg)
  · split at h <;> rename_i heq <;> rw [hx] at heq <;> cases heq
    rw [hs] at hN ⊢
    simp only [volumeLength, List.map_nil, List.sum_nil, Nat.add_zero, effect] at hN ⊢
    cases hy : yieldBuffer S offset buf w with
    | mk r2 w2 =>
    have hy' := yieldBuffer_step (P := P) L hS offset buf w hi hgd hsz hN (hP _ hN) hy
    rw [hy] at h
    cases r2 <;> (cases h; exact hy')
  · split at h <;> rename_i heq <;> rw [hx] at heq <;> cases heq
    have hm : 0 < m := hv (.hole m) (by rw [hs]; exact List.mem_cons_self)
    have htv : Valid t := fun x hx => hv x (by rw [hs]; exact List.mem_cons_of_mem _ hx)
    rw [hs] at hN ⊢
    have hvl : volumeLength (Seg.hole m :: t) = m + volumeLength t := by
      simp [volumeLength, segLength]
    rw [hvl] at hN ⊢
    cases hy : yieldBuffer S offset buf w with
    | mk r2 w2 =>
    have hy' := yieldBuffer_step (P := P) L hS offset buf w hi hgd hsz (by omega)
      (hP _ (by omega)) hy
    rw [hy] at h
    cases r2 with
    | error e =>
      cases h
      exact hy'.stop (Nat.le_refl _) (by omega)
    | ok u =>
    simp only at h
    have k1 := hy'.kept
    cases hz : s1.recvHole with
    | mk r3 s3 =>
    obtain ⟨c3, h3⟩ := Stream.recvHole_cases hs1 hz
    rcases h3 with ⟨e, rfl, he, hg⟩ | ⟨rfl, hs3⟩
    · split at h <;> rename_i heq <;> rw [hz] at heq <;> cases heq
      cases h
      exact hy'.thenError (Step.error (some := False) (g := id) (lo := offset) (hi := offset) k1.inv he
        (hbad (good_tail c1 hg))) (Nat.le_refl _) (by omega) (Nat.le_refl _) (by omega)
    · split at h <;> rename_i heq <;> rw [hz] at heq <;> cases heq
      cases hw : copyFrame S (offset + buf.length) m none w2 with
      | mk r4 w4 =>
      have hw' := copyFrame_hole (P := P) L hS (offset + buf.length) m hm w2 k1.inv
        (fun hr n hn => hgd hr n (k1.nets n hn)) (hP _ (by omega)) hw
      rw [hw] at h
      cases r4 with
      | error e =>
        cases h
        exact hy'.thenError hw' (Nat.le_refl _) (by omega) (by omega) (by omega)
      | ok u =>
      simp only [Nat.add_zero] at h
      have k2 := k1.trans hw'.kept
      have hrec := ih s3.left (by rw [← hleft]; exact Stream.recv_hole_left hx hz)
        (offset + buf.length) [] s3 w4 rfl (by simp only [List.length_nil]; omega)
        (by rw [hs3]; exact htv) (by rw [hs3]; simp only [List.length_nil]; omega)
        (fun hg => hbad (good_tail c1 (good_tail c3 hg))) k2.inv
        (fun hr n hn => hgd hr n (k2.nets n hn)) (k2.size.trans hsz) _ _ _ h
      rw [hs3] at hrec
      simp only [List.length_nil, Nat.zero_add, Nat.add_zero] at hrec
      refine (hy'.trans hw' (lo := offset) (hi := offset + buf.length + m) (s := True)
        (Nat.le_refl _) (by omega) (by omega) (Nat.le_refl _) .inr (fun _ => rfl)).trans hrec
        (Nat.le_refl _) (by omega) (by omega) (by omega) (fun _ => .inl trivial) (fun c => ?_)
      simp only [applyAll, effect, List.foldl_cons, List.length_nil, Nat.add_zero, apply_empty]
  · split at h <;> rename_i heq <;> rw [hx] at heq <;> cases heq
    have hv1 : Valid s1.segs := by
      intro x hxm
      rw [hs1] at hxm
      split at hxm
      · exact hv x (by rw [hs]; exact List.mem_cons_of_mem _ hxm)
      · rename_i hr
        rcases List.mem_cons.1 hxm with rfl | hxm
        · exact List.length_pos_iff.2 hr
        · exact hv x (by rw [hs]; exact List.mem_cons_of_mem _ hxm)
    have hvl : volumeLength s.segs = (b :: d).length + volumeLength s1.segs := by
      rw [hs, hs1]
      split
      · rename_i hr
        simp only [volumeLength, List.map_cons, List.sum_cons, segLength, List.length_append, hr,
          List.length_nil, Nat.add_zero]
      · simp only [volumeLength, List.map_cons, List.sum_cons, segLength, List.length_append]
        omega
    have heff : ∀ c, applyAll (effect offset (.data (buf ++ b :: d) :: s1.segs)) c =
        applyAll (effect offset (.data buf :: s.segs)) c := by
      intro c
      rw [hs, hs1]
      split
      · rename_i hr
        subst hr
        simp only [applyAll, effect, List.foldl_cons, List.append_nil]
        rw [apply_append]
        simp only [List.length_append, Nat.add_assoc]
      · simp only [applyAll, effect, List.foldl_cons]
        rw [apply_append, apply_append]
        simp only [List.length_append, Nat.add_assoc, List.append_assoc]
    have hlb : (buf ++ b :: d).length = buf.length + (b :: d).length := List.length_append
    have hdec : s1.left < left := by rw [← hleft]; exact Stream.recv_left hx
    have hpos : 0 < (b :: d).length := by simp
    rw [hvl] at hN ⊢
    by_cases hfull : (buf ++ b :: d).length = size
    · simp only at h
      rw [if_pos hfull] at h
      cases hw : copyFrame S offset (buf ++ b :: d).length (some (buf ++ b :: d)) w with
      | mk r4 w4 =>
      have hw' := copyFrame_data (P := P) L hS offset (buf ++ b :: d) (by omega) w hi hgd hsz
        (by omega) (hP _ (by omega)) hw
      rw [hw] at h
      cases r4 with
      | error e =>
        cases h
        exact hw'.stop (Nat.le_refl _) (by omega)
      | ok u =>
      have k2 := hw'.kept
      have hrec := ih s1.left hdec
        (offset + (buf ++ b :: d).length) [] s1 w4 rfl (by simp only [List.length_nil]; omega)
        hv1 (by simp only [List.length_nil]; omega)
        (fun hg => hbad (good_tail c1 hg)) k2.inv
        (fun hr n hn => hgd hr n (k2.nets n hn)) (k2.size.trans hsz) _ _ _ h
      simp only [List.length_nil, Nat.add_zero] at hrec
      refine hw'.trans hrec (Nat.le_refl _) (by omega) (by omega) (by omega)
        (fun _ => .inl trivial) (fun c => ?_)
      rw [← heff]
      simp only [applyAll, effect, List.foldl_cons, List.length_nil, Nat.add_zero, apply_empty]
    · simp only at h
      rw [if_neg hfull] at h
      have hrec := ih s1.left hdec offset (buf ++ b :: d) s1 w rfl (by omega) hv1 (by omega)
        (fun hg => hbad (good_tail c1 hg)) hi hgd hsz _ _ _ h
      exact hrec.wider (Nat.le_refl _) (by omega) (fun _ => by omega) heff

/-! ### The copy -/

theorem size_known {σ : Type} {S : Server σ} {w w' : World σ} {n : Nat}
    (h : HttpBackend.size S w = (.ok n, w')) : w'.client.size = some n := by
  unfold HttpBackend.size at h
  split at h
  · rename_i hs
    cases h; exact hs
  · cases hx : fetchSize S w with
    | mk r w1 =>
    rw [hx] at h
    cases r with
    | error e => cases h
    | ok m => cases h; rfl

theorem copyVolume_spec {σ : Type} {S : Server σ} (L : Lawful S.B) (hS : S.Proper)
    {reliable : Prop} (bufSize srcSize : Nat) (hbuf : 0 < bufSize) (s : Stream)
    (hv : Valid s.segs) (hsrc : volumeLength s.segs = srcSize) (w : World σ)
    (hi : L.Inv w.srv) (hgd : reliable → ∀ n ∈ w.nets, n.Good) {r : Except Err Unit} {w' : World σ}
    {s' : Stream} (h : copyVolume S bufSize srcSize s w = (r, w', s')) :
    L.Inv w'.srv ∧
    ((L.content w'.srv = L.content w.srv ∧ (∃ e, r = .error e) ∧
        ((∃ e, (HttpBackend.size S w).1 = .error e) ∨
         ∃ n, (HttpBackend.size S w).1 = .ok n ∧ n < srcSize)) ∨
     ∃ n, (HttpBackend.size S w).1 = .ok n ∧ srcSize ≤ n ∧
      (∀ j, n ≤ j → L.content w'.srv j = L.content w.srv j) ∧
      (r = .ok () →
        L.content w'.srv = (Frame.zero srcSize (n - srcSize)).apply
          (applyAll (effect 0 s.segs) (L.content w.srv)) ∧
        (w.client.canFlush = true ∨ 0 < n → L.durable w'.srv = L.content w'.srv)) ∧
      (∀ e, r = .error e → ¬ Good s ∨ ∃ k, k ≤ n ∧ MayFail L reliable k)) := by
  unfold copyVolume at h
  cases hz : HttpBackend.size S w with
  | mk r1 w1 =>
  obtain ⟨a1, a2⟩ := size_same L hS w hi hz
  rw [hz] at h
  cases r1 with
  | error e =>
    cases h
    exact ⟨a1.inv, .inl ⟨a1.content, ⟨e, rfl⟩, .inl ⟨e, rfl⟩⟩⟩
  | ok n =>
  simp only [gt_iff_lt] at h
  by_cases hlt : n < srcSize
  · rw [if_pos hlt] at h
    cases h
    exact ⟨a1.inv, .inl ⟨a1.content, ⟨_, rfl⟩, .inr ⟨n, rfl, hlt⟩⟩⟩
  · rw [if_neg hlt] at h
    have hgd1 : reliable → ∀ n ∈ w1.nets, n.Good := fun hr n hn => hgd hr n (a1.nets n hn)
    cases hc : copyLoop S bufSize 0 [] s w1 with
    | mk r2 x2 =>
    obtain ⟨w2, s2⟩ := x2
    have h2 := copyLoop_step (P := ¬ Good s ∨ ∃ k, k ≤ n ∧ MayFail L reliable k) L hS
      (reliable := reliable) bufSize (N := n) (fun k hk hm => .inr ⟨k, hk, hm⟩) s.left 0 [] s w1 rfl
      hbuf hv (by simp only [List.length_nil]; omega) .inl a1.inv hgd1 (size_known hz) _ _ _ hc
    simp only [List.length_nil, Nat.zero_add, hsrc] at h2
    have hg2 : ∀ c, applyAll (effect 0 (.data [] :: s.segs)) c = applyAll (effect 0 s.segs) c := by
      intro c
      simp only [applyAll, effect, List.foldl_cons, apply_empty, List.length_nil, Nat.add_zero]
    rw [hc] at h
    cases r2 with
    | error e =>
      cases h
      refine ⟨h2.kept.inv, .inr ⟨n, rfl, by omega,
        fun j hj => ?_, nofun, fun e' he => (h2.failed e' he).2⟩⟩
      rw [h2.outside j (by omega), a1.content]
    | ok u =>
    simp only at h
    have h3 : ∀ r3 w3, zeroRest S srcSize n w2 = (r3, w3) →
        Step L (¬ Good s ∨ ∃ k, k ≤ n ∧ MayFail L reliable k) srcSize n
          (Frame.zero srcSize (n - srcSize)).apply (srcSize < n) w2 r3 w3 := by
      intro r3 w3 h3
      unfold zeroRest at h3
      by_cases hgt : n > srcSize
      · rw [if_pos hgt] at h3
        cases hy : clientZero S srcSize (n - srcSize) w2 with
        | mk r4 w4 =>
        have := clientZero_step (P := ¬ Good s ∨ ∃ k, k ≤ n ∧ MayFail L reliable k) L hS srcSize
          (n - srcSize) (by omega) w2 h2.kept.inv
          (fun hr n hn => hgd1 hr n (h2.kept.nets n hn)) (fun hm => .inr ⟨_, by omega, hm⟩) hy
        rw [hy] at h3
        cases r4 <;>
        · cases h3
          exact this.wider (Nat.le_refl _) (by omega) (fun _ => trivial) (fun _ => rfl)
      · rw [if_neg hgt] at h3
        cases h3
        refine (Step.refl (some := srcSize < n) (lo := srcSize) (hi := n) h2.kept.inv
          (by omega)).wider (Nat.le_refl _) (Nat.le_refl _) id (fun c => ?_)
        funext i
        exact (if_neg (by simp only [Frame.Covers, Frame.start, Frame.length]; omega)).symm
    cases hy : zeroRest S srcSize n w2 with
    | mk r3 w3 =>
    have h3 := h3 _ _ hy
    rw [hy] at h
    cases r3 with
    | error e =>
      cases h
      refine ⟨h3.kept.inv, .inr ⟨n, rfl, by omega,
        fun j hj => ?_, nofun, fun e' he => (h3.failed e' he).2⟩⟩
      rw [h3.outside j (by omega), h2.outside j (by omega), a1.content]
    | ok u =>
    simp only at h
    cases hf : HttpBackend.flush S w3 with
    | mk r5 w5 =>
    have k3 := h2.kept.trans h3.kept
    obtain ⟨f1, f2, f3, f4, f5⟩ := flush_spec (reliable := reliable) L hS w3 k3.inv
      (fun hr n hn => hgd1 hr n (k3.nets n hn)) hf
    have hout : ∀ j, n ≤ j → L.content w5.srv j = L.content w.srv j := by
      intro j hj
      rw [f3, h3.outside j (by omega), h2.outside j (by omega), a1.content]
    rw [hf] at h
    cases r5 with
    | error e =>
      cases h
      exact ⟨f1.inv, .inr ⟨n, rfl, by omega, hout, nofun,
        fun e' he => .inr ⟨0, Nat.zero_le _, (f5 e' he).2⟩⟩⟩
    | ok u =>
      cases h
      refine ⟨f1.inv, .inr ⟨n, rfl, by omega, hout, fun _ => ⟨?_, ?_⟩, nofun⟩⟩
      · rw [f3, (h3.done rfl).1, (h2.done rfl).1, a1.content, hg2]
      · intro hd
        have hcf : w3.client.canFlush = w.client.canFlush := k3.canFlush.trans a2
        cases hb : w.client.canFlush with
        | true => rw [f4 rfl (hcf.trans hb), f3]
        | false =>
          rw [hb] at hd hcf
          have hn0 : 0 < n := by simpa using hd
          have hw1 : w1.client.canFlush = false := a2.trans hb
          have hw2 : w2.client.canFlush = false := h2.kept.canFlush.trans hw1
          have hd3 : L.durable w3.srv = L.content w3.srv := by
            by_cases hs0 : 0 < srcSize
            · exact (h3.done rfl).2 hw2 (.inl ((h2.done rfl).2 hw1 (.inr hs0)))
            · exact (h3.done rfl).2 hw2 (.inr (by omega))
          unfold HttpBackend.flush at hf
          rw [hcf] at hf
          cases hf
          exact hd3

end Imageio.LibvirtStream
