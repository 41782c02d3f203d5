import Verif.Model.LiveRead
import Verif.Lemmas.LiveStorage
import Verif.Lemmas.OpsRead
/-!
The calls of `ops.Read` (`Model/LiveRead.lean`): without other threads they are `Ops.readRun`; with other threads every byte was on
the disk when it was read.
-/
namespace Imageio.LiveRead
open Imageio.Live Imageio.Conc Imageio.Spec

variable {σ Γ : Type}

/-! ### Without other threads -/

/-- The attributes of `ops.Read` without the backend. -/
abbrev ofState (st : Ops.ReadState σ) : RState := ⟨st.buf, st.out, st.done, st.chunks⟩

theorem run_readChunk (B : Backend σ) (cancel sink : Nat → Bool) (size : Int) (skip : Nat) (st : Ops.ReadState σ)
    (k : Except Err Unit → RState → RProg) :
    (readChunk B.blockSize cancel sink size skip (ofState st) k).run B st.src =
      (k (Ops.readChunk B cancel sink size skip st).1 (ofState (Ops.readChunk B cancel sink size skip st).2)).run B
        (Ops.readChunk B cancel sink size skip st).2.src := by
  unfold readChunk Ops.readChunk
  simp only [RProg.run, ofState]
  by_cases h1 : B.tell st.src % B.blockSize ≠ 0
  · simp only [if_pos h1]
  · simp only [if_neg h1, RProg.run]
    generalize B.readinto st.src (pySlice st.buf 0 (roundUp (size - st.done) B.blockSize)).length = x
    obtain ⟨r, s'⟩ := x
    cases r with
    | error e => rfl
    | ok data =>
      simp only
      by_cases h2 : data.length = 0
      · simp only [if_pos h2]
      · simp only [if_neg h2]
        cases h3 : sink st.chunks
        · simp only [Bool.false_eq_true, if_false]
          cases h4 : cancel st.chunks <;> simp
        · simp

theorem run_readChunks (B : Backend σ) (cancel sink : Nat → Bool) (size : Int) : ∀ (fuel : Nat) (st : Ops.ReadState σ),
    (readChunks B.blockSize cancel sink size fuel (ofState st)).run B st.src =
      ((Ops.readChunks B cancel sink size fuel st).1, (Ops.readChunks B cancel sink size fuel st).2.out,
        (Ops.readChunks B cancel sink size fuel st).2.src) := by
  intro fuel
  induction fuel with
  | zero =>
    intro st
    unfold readChunks Ops.readChunks
    by_cases h : size - st.done = 0
    · simp only [ofState, if_pos h, RProg.run]
    · simp only [ofState, if_neg h, RProg.run]
  | succ fuel ih =>
    intro st
    unfold readChunks Ops.readChunks
    by_cases h : size - st.done = 0
    · simp only [ofState, if_pos h, RProg.run]
    · have h' : ¬ size - (ofState st).done = 0 := h
      simp only [if_neg h, if_neg h']
      rw [run_readChunk]
      generalize Ops.readChunk B cancel sink size 0 st = x
      obtain ⟨r, st'⟩ := x
      cases r with
      | error e => rfl
      | ok u => exact ih st'

theorem run_readRun (B : Backend σ) (cancel sink : Nat → Bool) (buf : Bytes) (size : Int) (offset : Nat) (s : σ) :
    (readRun B.blockSize cancel sink buf size offset).run B s =
      ((Ops.readRun B cancel sink buf size offset s).1, (Ops.readRun B cancel sink buf size offset s).2.out,
        (Ops.readRun B cancel sink buf size offset s).2.src) := by
  unfold readRun Ops.readRun
  simp only [RProg.run]
  generalize B.seek s (offset - offset % B.blockSize) = x
  obtain ⟨r, s'⟩ := x
  cases r with
  | error e => rfl
  | ok u =>
    by_cases h : offset % B.blockSize ≠ 0
    · simp only [if_pos h]
      rw [show (⟨buf, [], 0, 0⟩ : RState) = ofState ⟨s', buf, [], 0, 0⟩ from rfl, run_readChunk B cancel sink size _ ⟨s', buf, [], 0, 0⟩]
      generalize Ops.readChunk B cancel sink size (offset % B.blockSize) ⟨s', buf, [], 0, 0⟩ = x
      obtain ⟨r, st⟩ := x
      cases r with
      | error e => rfl
      | ok u => exact run_readChunks B cancel sink size _ st
    · simp only [if_neg h]
      exact run_readChunks B cancel sink size _ ⟨s', buf, [], 0, 0⟩

/-! ### With other threads -/

/-- What a backend has to do for a download, when the storage changes between its calls. -/
structure ReadLaw (M : Machine σ Γ) (B : Backend σ) where
  content : Γ → Nat → Byte
  pos : σ → Nat
  block_pos : 0 < B.blockSize
  shared_view : ∀ s g, M.shared (M.view s g) = g
  pos_view : ∀ s g, pos (M.view s g) = pos s
  tell : ∀ s, B.tell s = pos s
  seek : ∀ s n, (B.seek s n).1 = .ok () → pos (B.seek s n).2 = n
  read : ∀ s n d, (B.readinto s n).1 = .ok d → pos (B.readinto s n).2 = pos s + d.length ∧
    ∀ i, i < d.length → byteAt d i = content (M.shared s) (pos s + i)

/-- The bytes that were on the disk, and are there in the state `g`. -/
def grow (content : Γ → Nat → Byte) (H : Nat → Byte → Prop) (g : Γ) : Nat → Byte → Prop := fun x b => H x b ∨ content g x = b

/-- Whatever the storage is at the calls of the program, `Q` is true at its end, with the bytes that were on the disk at the calls. -/
def Watch (M : Machine σ Γ) (B : Backend σ) (content : Γ → Nat → Byte) (Q : (Nat → Byte → Prop) → Except Err Unit → Bytes → Prop) :
    RProg → (Nat → Byte → Prop) → σ → Prop
  | .done r out, H, _ => Q H r out
  | .seek n k, H, l => ∀ g, Watch M B content Q (k (B.seek (M.view l g) n).1) (grow content H g) (B.seek (M.view l g) n).2
  | .tell k, H, l => ∀ g, Watch M B content Q (k (B.tell (M.view l g))) (grow content H g) (M.view l g)
  | .readinto n k, H, l => ∀ g, Watch M B content Q (k (B.readinto (M.view l g) n).1) (grow content H g) (B.readinto (M.view l g) n).2

/-- A download from `offset`: its bytes were on the disk at the calls, it has not more than it was asked for, and exactly these if it
succeeds. -/
def ReadPost (offset size : Nat) (H : Nat → Byte → Prop) (r : Except Err Unit) (out : Bytes) : Prop :=
  (∀ i, i < out.length → H (offset + i) (byteAt out i)) ∧ out.length ≤ size ∧ (r = .ok () → out.length = size)

/-- The state of the operation between its chunks. -/
structure ReadInv (bs offset size : Nat) (H : Nat → Byte → Prop) (st : RState) (pos : Nat) : Prop where
  bytes : ∀ i, i < st.out.length → H (offset + i) (byteAt st.out i)
  le : st.out.length ≤ size
  next : (st.done = st.out.length ∧ (st.out.length = size ∨ pos = offset + st.out.length)) ∨ (st.done ≠ size ∧ pos % bs ≠ 0)

theorem byteAt_append_left {a b : Bytes} {i : Nat} (h : i < a.length) : byteAt (a ++ b) i = byteAt a i := by
  simp [byteAt, List.getElem?_append_left h]

theorem byteAt_append_right {a b : Bytes} {i : Nat} (h : a.length ≤ i) : byteAt (a ++ b) i = byteAt b (i - a.length) := by
  simp [byteAt, List.getElem?_append_right h]

theorem byteAt_slice {d : Bytes} {lo n i : Nat} (h : i < n) : byteAt ((d.drop lo).take n) i = byteAt d (lo + i) := by
  simp [byteAt, List.getElem?_take, h]

variable {M : Machine σ Γ} {B : Backend σ}

theorem watch_readChunk (L : ReadLaw M B) (cancel sink : Nat → Bool) (offset size skip : Nat) (st : RState) (H : Nat → Byte → Prop) (l : σ)
    (Q : (Nat → Byte → Prop) → Except Err Unit → Bytes → Prop) (k : Except Err Unit → RState → RProg)
    (hsk : skip < B.blockSize) (h1 : ∀ i, i < st.out.length → H (offset + i) (byteAt st.out i)) (hle : st.out.length ≤ size)
    (hpos : L.pos l % B.blockSize ≠ 0 ∨ (st.done = st.out.length ∧ L.pos l + skip = offset + st.out.length ∧ (skip = 0 ∨ st.out = [])))
    (hk : ∀ r st' H' l', (∀ x b, H x b → H' x b) → (∀ i, i < st'.out.length → H' (offset + i) (byteAt st'.out i)) → st'.out.length ≤ size →
      (r = .ok () → ReadInv B.blockSize offset size H' st' (L.pos l')) → Watch M B L.content Q (k r st') H' l') :
    Watch M B L.content Q (readChunk B.blockSize cancel sink size skip st k) H l := by
  unfold readChunk
  intro g
  simp only
  rw [L.tell, L.pos_view]
  have up1 : ∀ x b, H x b → grow L.content H g x b := fun x b h => .inl h
  split
  · exact hk _ _ _ _ up1 (fun i hi => .inl (h1 i hi)) hle (fun h => by cases h)
  · rename_i hal
    obtain ⟨hd, hp, hs0⟩ := hpos.resolve_left hal
    intro g'
    have up2 : ∀ x b, H x b → grow L.content (grow L.content H g) g' x b := fun x b h => .inl (.inl h)
    generalize hn : (pySlice st.buf 0 (roundUp ((size : Int) - st.done) B.blockSize)).length = n
    cases hr : (B.readinto (M.view (M.view l g) g') n).1 with
    | error e => exact hk _ _ _ _ up2 (fun i hi => .inl (.inl (h1 i hi))) hle (fun h => by cases h)
    | ok data =>
      obtain ⟨q1, q2⟩ := L.read _ _ _ hr
      rw [L.pos_view, L.pos_view] at q1 q2
      rw [L.shared_view] at q2
      simp only
      split
      · exact hk _ _ _ _ up2 (fun i hi => .inl (.inl (h1 i hi))) hle (fun h => by cases h)
      · rename_i hne
        split
        · exact hk _ _ _ _ up2 (fun i hi => .inl (.inl (h1 i hi))) hle (fun h => by cases h)
        · -- the bytes that are written
          have hal' : L.pos l % B.blockSize = 0 := by simpa using hal
          have main : ∃ piece : Bytes, pySlice (data ++ st.buf.drop data.length) (skip : Int)
                ((skip : Int) + min ((data.length : Int) - skip) ((size : Int) - st.done)) = piece ∧
              (∀ i, i < piece.length → byteAt piece i = byteAt data (skip + i)) ∧ skip + piece.length ≤ max skip data.length ∧
              st.out.length + piece.length ≤ size ∧
              (skip ≤ data.length → (piece.length : Int) = min ((data.length : Int) - skip) ((size : Int) - st.done)) ∧
              (data.length < skip → piece = []) := by
            by_cases hds : data.length < skip
            · refine ⟨[], ?_, fun i hi => by simp at hi, by simp only [List.length_nil]; omega, by simpa using hle, fun h => by omega, fun _ => rfl⟩
              rw [show (skip : Int) + min ((data.length : Int) - skip) ((size : Int) - st.done) = (data.length : Nat) by omega,
                Ops.pySlice_append _ _ _ _ (Nat.le_refl _), List.drop_eq_nil_of_le (by omega)]
              exact List.take_nil
            · refine ⟨(data.drop skip).take (min (data.length - skip) (size - st.out.length)), ?_, ?_, ?_, ?_, ?_, ?_⟩
              · rw [show (skip : Int) + min ((data.length : Int) - skip) ((size : Int) - st.done) =
                    ((skip + min (data.length - skip) (size - st.out.length) : Nat) : Int) by omega,
                  Ops.pySlice_append _ _ _ _ (by omega), Nat.add_sub_cancel_left]
              · intro i hi
                rw [List.length_take] at hi
                exact byteAt_slice (by omega)
              · simp only [List.length_take, List.length_drop]; omega
              · simp only [List.length_take, List.length_drop]; omega
              · intro _; simp only [List.length_take, List.length_drop]; omega
              · intro h; exact absurd h hds
          obtain ⟨piece, e, p1, p2, p3, p4, p5⟩ := main
          rw [e]
          have bytes : ∀ i, i < (st.out ++ piece).length →
              grow L.content (grow L.content H g) g' (offset + i) (byteAt (st.out ++ piece) i) := by
            intro i hi
            by_cases hlt : i < st.out.length
            · rw [byteAt_append_left hlt]; exact up2 _ _ (h1 i hlt)
            · rw [byteAt_append_right (by omega)]
              rw [List.length_append] at hi
              have hi' : i - st.out.length < piece.length := by omega
              rw [p1 _ hi', q2 _ (by omega)]
              right
              congr 1
              omega
          have len : (st.out ++ piece).length ≤ size := by rw [List.length_append]; exact p3
          split
          · exact hk _ _ _ _ up2 bytes len (fun h => by cases h)
          · refine hk _ _ _ _ up2 bytes len fun _ => ⟨bytes, len, ?_⟩
            simp only [List.length_append]
            by_cases hds : data.length < skip
            · right
              have hout : st.out = [] := by
                rcases hs0 with h | h
                · omega
                · exact h
              rw [hout] at hp hd hle
              simp only [List.length_nil] at hp hd hle
              refine ⟨by omega, ?_⟩
              rw [q1, Nat.add_mod, hal', Nat.zero_add, Nat.mod_mod, Nat.mod_eq_of_lt (by omega)]
              exact hne
            · left
              have := p4 (by omega)
              refine ⟨by omega, ?_⟩
              rw [q1]
              omega

theorem watch_readChunks (L : ReadLaw M B) (cancel sink : Nat → Bool) (offset size : Nat) : ∀ (fuel : Nat) (st : RState) (H : Nat → Byte → Prop) (l : σ),
    ReadInv B.blockSize offset size H st (L.pos l) →
    Watch M B L.content (ReadPost offset size) (readChunks B.blockSize cancel sink size fuel st) H l := by
  intro fuel
  induction fuel with
  | zero =>
    intro st H l hi
    unfold readChunks
    split
    · refine ⟨hi.bytes, hi.le, fun _ => ?_⟩
      rcases hi.next with ⟨h, -⟩ | ⟨h, -⟩ <;> omega
    · exact ⟨hi.bytes, hi.le, fun h => by cases h⟩
  | succ fuel ih =>
    intro st H l hi
    unfold readChunks
    split
    · refine ⟨hi.bytes, hi.le, fun _ => ?_⟩
      rcases hi.next with ⟨h, -⟩ | ⟨h, -⟩ <;> omega
    · rename_i hn
      simp only
      refine watch_readChunk L cancel sink offset size 0 st H l _ _ L.block_pos hi.bytes hi.le ?_ ?_
      · rcases hi.next with ⟨h1, h2⟩ | ⟨-, h2⟩
        · right
          exact ⟨h1, by omega, .inl rfl⟩
        · exact .inl h2
      · intro r st' H' l' hup hb hl hinv
        cases r with
        | error e => exact ⟨hb, hl, fun h => by cases h⟩
        | ok u => exact ih st' H' l' (hinv rfl)

theorem watch_readRun (L : ReadLaw M B) (cancel sink : Nat → Bool) (buf : Bytes) (size offset : Nat) (H : Nat → Byte → Prop) (l : σ) :
    Watch M B L.content (ReadPost offset size) (readRun B.blockSize cancel sink buf size offset) H l := by
  unfold readRun
  intro g
  cases hs : (B.seek (M.view l g) (offset - offset % B.blockSize)).1 with
  | error e => exact ⟨fun i hi => by simp at hi, by simp, fun h => by cases h⟩
  | ok u =>
    have hp := L.seek _ _ hs
    have hm := Nat.mod_lt offset L.block_pos
    have hmle := Nat.mod_le offset B.blockSize
    simp only
    split
    · refine watch_readChunk L cancel sink offset size _ _ _ _ _ _ hm (fun i hi => by simp at hi) (by simp) (.inr ⟨rfl, ?_, .inr rfl⟩) ?_
      · rw [hp]; simp only [List.length_nil]; omega
      · intro r st' H' l' hup hb hl hinv
        cases r with
        | error e => exact ⟨hb, hl, fun h => by cases h⟩
        | ok u => exact watch_readChunks L cancel sink offset size _ st' H' l' (hinv rfl)
    · rename_i hz
      refine watch_readChunks L cancel sink offset size _ _ _ _ ⟨fun i hi => by simp at hi, by simp, .inl ⟨rfl, .inr ?_⟩⟩
      rw [hp]
      simp only [ne_eq, Decidable.not_not] at hz
      simp [hz]

/-! ### The backends -/

/-- Files and block devices. -/
def fileRead (env : File.Env) (hb : 0 < env.bs) : ReadLaw fileMachine (File.backend env) where
  content g := byteAt g.1
  pos s := s.pos
  block_pos := hb
  shared_view _ _ := rfl
  pos_view _ _ := rfl
  tell _ := rfl
  seek s n h := rfl
  read s n d h := by
    have main : ∀ s : File.State, (if s.pos % env.bs ≠ 0 ∨ n % env.bs ≠ 0 then ((.error (.os "EINVAL"), s) : Res File.State Bytes)
        else (.ok ((s.data.drop s.pos).take (File.shortRead env s (min n (s.data.length - s.pos)))),
          { s with pos := s.pos + File.shortRead env s (min n (s.data.length - s.pos)), shortR := s.shortR.tail })).1 = .ok d →
        (if s.pos % env.bs ≠ 0 ∨ n % env.bs ≠ 0 then ((.error (.os "EINVAL"), s) : Res File.State Bytes)
        else (.ok ((s.data.drop s.pos).take (File.shortRead env s (min n (s.data.length - s.pos)))),
          { s with pos := s.pos + File.shortRead env s (min n (s.data.length - s.pos)), shortR := s.shortR.tail })).2.pos = s.pos + d.length ∧
        ∀ i, i < d.length → byteAt d i = byteAt s.data (s.pos + i) := by
      intro s h
      have hle : File.shortRead env s (min n (s.data.length - s.pos)) ≤ min n (s.data.length - s.pos) := by
        unfold File.shortRead
        split
        · exact Nat.le_refl _
        · exact Nat.min_le_left _ _
      generalize File.shortRead env s (min n (s.data.length - s.pos)) = m at h hle ⊢
      split at h
      · cases h
      · rename_i hc
        rw [if_neg hc]
        cases h
        simp only [List.length_take, List.length_drop]
        exact ⟨by omega, fun i hi => byteAt_slice (by omega)⟩
    have h' : (File.fioReadinto env s n).1 = .ok d := h
    show (File.fioReadinto env s n).2.pos = s.pos + d.length ∧ ∀ i, i < d.length → byteAt d i = byteAt s.data (s.pos + i)
    unfold File.fioReadinto File.sys at h' ⊢
    split at h'
    · exact main s h'
    · rename_i fs hf
      exact main { s with faults := fs } h'
    · cases h'

/-- NBD. -/
def nbdRead (bs : Nat) (hb : 0 < bs) : ReadLaw nbdMachine (NbdBackend.backend bs) where
  content g := byteAt g.1
  pos s := s.pos
  block_pos := hb
  shared_view _ _ := rfl
  pos_view _ _ := rfl
  tell _ := rfl
  seek s n h := rfl
  read s n d h := by
    have h' : (NbdBackend.readinto s n).1 = .ok d := h
    show (NbdBackend.readinto s n).2.pos = s.pos + d.length ∧ ∀ i, i < d.length → byteAt d i = byteAt s.export_ (s.pos + i)
    unfold NbdBackend.readinto at h' ⊢
    simp only at h' ⊢
    have hq := nbd_request_same s s.pos (min n (s.export_.length - s.pos))
    generalize NbdBackend.request s s.pos (min n (s.export_.length - s.pos)) (fun _ s => s) = x at hq h' ⊢
    obtain ⟨x1, x2⟩ := x
    simp only at hq
    subst hq
    split at h'
    · cases h'
    · rename_i h1
      rw [if_neg h1]
      split at h'
      · rename_i h2
        rw [if_pos h2]
        cases h'
        exact ⟨rfl, fun i hi => by simp at hi⟩
      · rename_i h2
        rw [if_neg h2]
        cases x1 with
        | error e => cases h'
        | ok u =>
          cases h'
          simp only [List.length_take, List.length_drop]
          exact ⟨by omega, fun i hi => byteAt_slice (by omega)⟩

end Imageio.LiveRead
