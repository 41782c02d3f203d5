import Verif.Lemmas.Extents
/-!
C20, C21, C35: the extents of an image.
-/
namespace Imageio.Props
open Imageio.Spec Imageio.Extents Imageio.Http Imageio.Images

/-- A server, as seen by the client: the descriptors sent for block status command number `n`. -/
abbrev Server := (n offset length : Nat) → Except Err RawReply

/-- What is true about an image: the flags of every byte in every context the server exports. -/
structure Truth where
  alloc : Nat → Nat
  depth : Option (Nat → Nat)
  dirty : Option (Nat → Nat)

/-- Everything the server sends is true.  It may split and truncate its replies, report more than
it was asked for, and answer the same command differently. -/
def Server.Honest (s : Server) (t : Truth) (size : Nat) : Prop :=
  ∀ n off len r, off < size → s n off len = .ok r →
    (∀ l, r.alloc = some l → Describes t.alloc size off l) ∧
    (∀ l, r.depth = some l → ∃ d, t.depth = some d ∧ Describes d size off l) ∧
    (r.depth = none → t.depth = none) ∧
    (∀ l, r.dirty = some l → ∃ d, t.dirty = some d ∧ Describes d size off l)

/-- A description that may be sent: at least one extent, and the length of every one is a positive
multiple of the minimum block size. -/
def Sendable (mb : Nat) (l : List (Nat × Nat)) : Prop :=
  l ≠ [] ∧ ∀ d ∈ l, 0 < d.1 ∧ d.1 % mb = 0

/-- The server answers every command, in the contexts needed. -/
def Server.Answers (s : Server) (mb : Nat) (dirty : Bool) (size : Nat) : Prop :=
  ∀ n off len, off < size → ∃ r a, s n off len = .ok r ∧ r.alloc = some a ∧ Sendable mb a ∧
    (∀ l, r.depth = some l → Sendable mb l) ∧ (∀ l, r.dirty = some l → Sendable mb l) ∧
    (dirty = true → r.dirty.isSome)

/-! ## C20 -/

/-- What any reply gives. -/
theorem wire_reply {mb : Nat} {s : Server} {dirty : Bool} {n off len : Nat} {r : Reply}
    {exts : List Ext} (h : wireClient mb s n off len = .ok r)
    (he : replyExtents dirty r = .ok exts) : Pos exts ∧ exts ≠ [] := by
  obtain ⟨rr, -, ha, hd, hb⟩ := wireClient_spec h
  unfold replyExtents at he
  rcases recvContext_spec ha with ⟨-, h1⟩ | ⟨l, a, -, h1, pa, na, -⟩
  · simp [h1] at he
  · rw [h1] at he
    simp only at he
    cases dirty with
    | true =>
      rcases recvContext_spec hb with ⟨-, h2⟩ | ⟨l, b, -, h2, pb, nb, -⟩
      · simp [h2] at he
      · simp only [h2, ↓reduceIte, Except.ok.injEq] at he
        subst he
        exact ⟨merged_pos pa pb, merged_ne_nil na nb⟩
    | false =>
      rcases recvContext_spec hd with ⟨-, h2⟩ | ⟨l, b, -, h2, pb, nb, -⟩
      · simp only [h2, Bool.false_eq_true, ↓reduceIte, Except.ok.injEq] at he
        subst he
        exact ⟨pa, na⟩
      · simp only [h2, Bool.false_eq_true, ↓reduceIte, Except.ok.injEq] at he
        subst he
        exact ⟨merged_pos pa pb, merged_ne_nil na nb⟩

/-- Zero extents from any server, even a lying one, tile the image. -/
theorem C20_zero_tiles {i : NbdInfo} {mb : Nat} {s : Server} {zs : List ZeroExtent}
    (hsize : 0 < i.exportSize) (h : nbdZero i (wireClient mb s) = .ok zs) :
    Tiles 0 (zs.map fun z => (z.start, z.length)) i.exportSize := by
  unfold nbdZero at h
  split at h
  · simp only [Except.ok.injEq] at h
    subst h
    simpa using Tiles.cons hsize (Tiles.nil (0 + i.exportSize))
  · split at h
    · simp at h
    next l hl =>
      obtain ⟨exts, rfl, hsh, hlen, -⟩ := extents_spec hsize (fun _ _ => True)
        (fun n off len r exts _ h1 h2 => ⟨(wire_reply h1 h2).1, (wire_reply h1 h2).2, by simp⟩) hl
      obtain ⟨zs', h1, h2, -⟩ := zeroExtents_spec (shortest_pos hsh) 0
      rw [h1] at h
      simp only [Except.ok.injEq] at h
      subst h
      rwa [hlen, Nat.zero_add] at h2

/-- Dirty extents from any server tile the image. -/
theorem C20_dirty_tiles {i : NbdInfo} {mb : Nat} {s : Server} {zs : List DirtyExtent}
    (hsize : 0 < i.exportSize) (h : nbdDirty i (wireClient mb s) = .ok zs) :
    Tiles 0 (zs.map fun z => (z.start, z.length)) i.exportSize := by
  unfold nbdDirty at h
  split at h
  · simp at h
  · split at h
    · simp at h
    next l hl =>
      obtain ⟨exts, rfl, hsh, hlen, -⟩ := extents_spec hsize (fun _ _ => True)
        (fun n off len r exts _ h1 h2 => ⟨(wire_reply h1 h2).1, (wire_reply h1 h2).2, by simp⟩) hl
      obtain ⟨zs', h1, h2, -⟩ := dirtyExtents_spec (shortest_pos hsh) 0
      rw [h1] at h
      simp only [Except.ok.injEq] at h
      subst h
      rwa [hlen, Nat.zero_add] at h2

/-- Every byte belongs to exactly one of the extents. -/
theorem C20_zero_unique {i : NbdInfo} {mb : Nat} {s : Server} {zs : List ZeroExtent}
    (h : nbdZero i (wireClient mb s) = .ok zs) (k : Nat) (hk : k < i.exportSize) :
    ∃! x : Nat × Nat, x ∈ zs.map (fun z => (z.start, z.length)) ∧ x.1 ≤ k ∧ k < x.1 + x.2 :=
  (C20_zero_tiles (by omega) h).unique k (Nat.zero_le _) hk

/-- The file and memory backends report one extent with the whole image. -/
theorem C20_plain_tiles (size : Nat) (h : 0 < size) :
    Tiles 0 ((plainZero size).map fun z => (z.start, z.length)) size := by
  simpa [plainZero] using Tiles.cons h (Tiles.nil (0 + size))

/-- An answering server's reply. -/
theorem wire_answers {mb : Nat} {s : Server} {dirty : Bool} {size : Nat}
    (hs : s.Answers mb dirty size) (n off len : Nat) (ho : off < size) :
    ∃ r exts, wireClient mb s n off len = .ok r ∧ replyExtents dirty r = .ok exts ∧
      Pos exts ∧ exts ≠ [] := by
  obtain ⟨r, a, h1, h2, h3, h4, h5, h6⟩ := hs n off len ho
  have ok : ∀ ctx l, Sendable mb l → ∃ es, recvContext mb ctx (some l) = .ok (some es) := by
    intro ctx l hl
    obtain ⟨es, he⟩ := recvExtents_ok (ctx := ctx) hl.2
    refine ⟨es, ?_⟩
    cases l with
    | nil => exact absurd rfl hl.1
    | cons d l => simp [recvContext, he]
  have ok' : ∀ ctx (o : Option (List (Nat × Nat))), (∀ l, o = some l → Sendable mb l) →
      ∃ e : Option (List Ext), recvContext mb ctx o = .ok e ∧ e.isSome = o.isSome := by
    intro ctx o ho
    cases o with
    | none => exact ⟨none, rfl, rfl⟩
    | some l =>
      obtain ⟨es, he⟩ := ok ctx l (ho l rfl)
      exact ⟨some es, he, rfl⟩
  obtain ⟨ea, ha⟩ := ok .alloc a h3
  obtain ⟨ed, hd, -⟩ := ok' .depth r.depth h4
  obtain ⟨eb, hb, hsome⟩ := ok' .dirty r.dirty h5
  rw [← h2] at ha
  have hw : wireClient mb s n off len = .ok ⟨some ea, ed, eb⟩ := by
    simp [wireClient, h1, ha, hd, hb]
  have : ∃ exts, replyExtents dirty ⟨some ea, ed, eb⟩ = .ok exts := by
    cases dirty with
    | true =>
      rw [h6 rfl, Option.isSome_iff_exists] at hsome
      obtain ⟨b, rfl⟩ := hsome
      exact ⟨_, rfl⟩
    | false =>
      cases ed with
      | none => exact ⟨_, rfl⟩
      | some d => exact ⟨_, rfl⟩
  obtain ⟨exts, he⟩ := this
  exact ⟨_, exts, hw, he, wire_reply hw he⟩

/-- The extents are reported, for every server that answers: the loop ends after finitely many
commands, whatever the sizes of the replies. -/
theorem C20_zero_reported {i : NbdInfo} {mb : Nat} {s : Server} (hsize : 0 < i.exportSize)
    (hs : s.Answers mb false i.exportSize) : ∃ zs, nbdZero i (wireClient mb s) = .ok zs := by
  unfold nbdZero
  split
  · exact ⟨_, rfl⟩
  · obtain ⟨st, hl⟩ := extentsLoop_ok (client := wireClient mb s) (dirty := false)
      (end_ := i.exportSize) (wire_answers hs) (i.exportSize - 0) 0 ⟨0, none, []⟩
      ⟨.nil, fun _ => rfl⟩ (Nat.zero_le _) (Nat.le_refl _)
    have he : extents (wireClient mb s) false 0 i.exportSize = .ok (st.out.map some ++ [st.cur]) := by
      unfold extents
      rw [hl]
    obtain ⟨exts, h1, h2, -⟩ := extents_spec hsize (fun _ _ => True)
      (fun n off len r exts _ h1 h2 => ⟨(wire_reply h1 h2).1, (wire_reply h1 h2).2, by simp⟩) he
    obtain ⟨zs, h3, -⟩ := zeroExtents_spec (shortest_pos h2) 0
    rw [he]
    exact ⟨zs, by simpa [h1] using h3⟩

theorem C20_dirty_reported {i : NbdInfo} {mb : Nat} {s : Server} (hsize : 0 < i.exportSize)
    (hd : i.hasDirtyBitmap = true) (hs : s.Answers mb true i.exportSize) :
    ∃ zs, nbdDirty i (wireClient mb s) = .ok zs := by
  unfold nbdDirty
  rw [hd]
  obtain ⟨st, hl⟩ := extentsLoop_ok (client := wireClient mb s) (dirty := true)
    (end_ := i.exportSize) (wire_answers hs) (i.exportSize - 0) 0 ⟨0, none, []⟩
    ⟨.nil, fun _ => rfl⟩ (Nat.zero_le _) (Nat.le_refl _)
  have he : extents (wireClient mb s) true 0 i.exportSize = .ok (st.out.map some ++ [st.cur]) := by
    unfold extents
    rw [hl]
  obtain ⟨exts, h1, h2, -⟩ := extents_spec hsize (fun _ _ => True)
    (fun n off len r exts _ h1 h2 => ⟨(wire_reply h1 h2).1, (wire_reply h1 h2).2, by simp⟩) he
  obtain ⟨zs, h3, -⟩ := dirtyExtents_spec (shortest_pos h2) 0
  rw [he]
  exact ⟨zs, by simpa [h1] using h3⟩

theorem recvContext_zero {ctx : Context} {raw : Option (List (Nat × Nat))} {o : Option (List Ext)}
    (h : recvContext 0 ctx raw = .ok o) : o = none := by
  cases raw with
  | none =>
    cases h
    rfl
  | some l =>
    cases l with
    | nil => cases h
    | cons d l =>
      obtain ⟨len, fl⟩ := d
      simp only [recvContext, recvExtents] at h
      unfold Ext.unpack at h
      by_cases hl : len = 0
      · simp [hl] at h
      · simp [hl] at h

/-- A server that announces 0 as its minimum block size: the extents are never reported, whatever it answers. -/
theorem C20_zero_block {i : NbdInfo} {s : Server} (hsize : 0 < i.exportSize) (hb : i.hasBaseAllocation = true) :
    (∀ zs, nbdZero i (wireClient 0 s) ≠ .ok zs) ∧ ∀ zs, nbdDirty i (wireClient 0 s) ≠ .ok zs := by
  have hw : ∀ dirty n st, st.offset < i.exportSize → ∀ fuel r, extentsLoop (wireClient 0 s) dirty i.exportSize fuel n st ≠ .ok r := by
    intro dirty n st ho fuel r h
    unfold extentsLoop at h
    rw [if_pos ho] at h
    cases fuel with
    | zero => cases h
    | succ fuel =>
      simp only at h
      split at h
      · cases h
      rename_i rep hrep
      have ha : rep.alloc = none := by
        unfold wireClient at hrep
        split at hrep
        · cases hrep
        split at hrep
        · rename_i a d b h1 h2 h3
          cases hrep
          exact recvContext_zero h1
        · cases hrep
      unfold replyExtents at h
      rw [ha] at h
      cases h
  have he : ∀ dirty r, extents (wireClient 0 s) dirty 0 i.exportSize ≠ .ok r := by
    intro dirty r h
    unfold extents at h
    split at h
    · cases h
    · rename_i st hst
      exact hw dirty 0 _ hsize _ st hst
  constructor
  · intro zs h
    unfold nbdZero at h
    simp only [hb, Bool.not_true, Bool.false_eq_true, if_false] at h
    split at h
    · cases h
    · rename_i l hl
      exact he false l hl
  · intro zs h
    unfold nbdDirty at h
    split at h
    · cases h
    · split at h
      · cases h
      · rename_i l hl
        exact he true l hl

example : nbdZero ⟨10, true, true⟩ (wireClient 0 fun _ _ _ => .ok ⟨some [(10, 0)], none, none⟩) = .error (.exception "ProtocolError") := rfl

/-- The claim fails for an empty export: the NBD backend raises `AttributeError`, with every
server (no command is sent), and the file and memory backends report an empty extent. -/
theorem C20_counterexample_empty (s : Client) (i : NbdInfo) (hi : i.hasBaseAllocation = true)
    (h0 : i.exportSize = 0) :
    nbdZero i s = .error (.exception "AttributeError") ∧
    ¬ Tiles 0 ((plainZero 0).map fun z => (z.start, z.length)) 0 := by
  constructor
  · have : extents s false 0 0 = .ok [none] := by
      simp [extents, extentsLoop]
    simp only [nbdZero, hi, Bool.not_true, Bool.false_eq_true, ↓reduceIte, h0, this]
    rfl
  · intro h
    simp only [plainZero, List.map_cons, List.map_nil] at h
    cases h with
    | cons h => omega

/-! ## C21 -/

/-- `merged`, byte by byte: the flags of both lists, as far as both describe. -/
theorem C21_merged_bytes (as bs : List Ext) :
    expand ((merged as bs).map Ext.run) =
      List.zipWith (· ||| ·) (expand (as.map Ext.run)) (expand (bs.map Ext.run)) :=
  bytes_merged as bs

/-- `nbdutil.extents` yields the shortest list: no empty extents, and consecutive extents differ
in flags. -/
theorem C21_shortest {mb : Nat} {s : Server} {dirty : Bool} {size : Nat} {l : List (Option Ext)}
    (hsize : 0 < size) (h : extents (wireClient mb s) dirty 0 size = .ok l) :
    ∃ exts : List Ext, l = exts.map some ∧ Shortest (exts.map fun e => (e.length, e.flags)) := by
  obtain ⟨exts, h1, h2, -⟩ := extents_spec hsize (fun _ _ => True)
    (fun n off len r exts _ h1 h2 => ⟨(wire_reply h1 h2).1, (wire_reply h1 h2).2, by simp⟩) h
  exact ⟨exts, h1, h2⟩

/-- The private flags of byte `k`. -/
def trueFlags (t : Truth) (dirty : Bool) (k : Nat) : Nat :=
  norm .alloc (t.alloc k) |||
    (if dirty then (match t.dirty with | some d => norm .dirty (d k) | none => 0)
     else match t.depth with | some d => norm .depth (d k) | none => 0)

theorem wire_honest {mb : Nat} {s : Server} {t : Truth} {size : Nat} (hh : s.Honest t size)
    {dirty : Bool} {n off len : Nat} {r : Reply} {exts : List Ext} (ho : off < size)
    (h : wireClient mb s n off len = .ok r) (he : replyExtents dirty r = .ok exts) :
    ∀ j (hj : j < (bytes exts).length), off + j < size →
      (bytes exts)[j] = trueFlags t dirty (off + j) := by
  obtain ⟨rr, hr, ha, hd, hb⟩ := wireClient_spec h
  obtain ⟨t1, t2, t3, t4⟩ := hh n off len rr ho hr
  unfold replyExtents at he
  rcases recvContext_spec ha with ⟨-, h1⟩ | ⟨la, a, ea, h1, pa, na, ba⟩
  · simp [h1] at he
  · rw [h1] at he
    simp only at he
    have ta := t1 la ea
    cases dirty with
    | true =>
      rcases recvContext_spec hb with ⟨-, h2⟩ | ⟨lb, b, eb, h2, pb, nb, bb⟩
      · simp [h2] at he
      · simp only [h2, ↓reduceIte, Except.ok.injEq] at he
        subst he
        obtain ⟨d, td, tb⟩ := t4 lb eb
        intro j hj hlt
        simp only [bytes_merged, List.length_zipWith, ba, bb, List.length_map] at hj
        simp only [bytes_merged, List.getElem_zipWith, ba, bb, List.getElem_map, trueFlags, td,
          ↓reduceIte]
        rw [ta j (by omega) hlt, tb j (by omega) hlt]
    | false =>
      rcases recvContext_spec hd with ⟨e2, h2⟩ | ⟨lb, b, eb, h2, pb, nb, bb⟩
      · simp only [h2, Bool.false_eq_true, ↓reduceIte, Except.ok.injEq] at he
        subst he
        intro j hj hlt
        simp only [ba, List.length_map] at hj
        simp only [ba, List.getElem_map, trueFlags, t3 e2, Bool.false_eq_true, ↓reduceIte,
          Nat.or_zero]
        rw [ta j (by omega) hlt]
      · simp only [h2, Bool.false_eq_true, ↓reduceIte, Except.ok.injEq] at he
        subst he
        obtain ⟨d, td, tb⟩ := t2 lb eb
        intro j hj hlt
        simp only [bytes_merged, List.length_zipWith, ba, bb, List.length_map] at hj
        simp only [bytes_merged, List.getElem_zipWith, ba, bb, List.getElem_map, trueFlags, td,
          Bool.false_eq_true, ↓reduceIte]
        rw [ta j (by omega) hlt, tb j (by omega) hlt]

theorem extents_honest {mb : Nat} {s : Server} {t : Truth} {size : Nat} (hh : s.Honest t size)
    {dirty : Bool} (hsize : 0 < size) {l : List (Option Ext)}
    (h : extents (wireClient mb s) dirty 0 size = .ok l) :
    ∃ exts : List Ext, l = exts.map some ∧ Shortest (exts.map Ext.run) ∧
      (bytes exts).length = size ∧
      ∀ j (hj : j < (bytes exts).length), (bytes exts)[j] = trueFlags t dirty j :=
  extents_spec hsize (fun k f => f = trueFlags t dirty k)
    (fun _ _ _ _ _ ho h1 h2 => ⟨(wire_reply h1 h2).1, (wire_reply h1 h2).2,
      wire_honest hh ho h1 h2⟩) h

/-- The extents do not depend on the replies: two honest servers with the same image get the same
result, however they split, truncate or extend their replies. -/
theorem C21_split_independent {mb mb' : Nat} {s s' : Server} {t : Truth} {size : Nat}
    (hh : s.Honest t size) (hh' : s'.Honest t size) (dirty : Bool) (hsize : 0 < size)
    {l l' : List (Option Ext)} (h : extents (wireClient mb s) dirty 0 size = .ok l)
    (h' : extents (wireClient mb' s') dirty 0 size = .ok l') : l = l' := by
  obtain ⟨e, rfl, s1, n1, f1⟩ := extents_honest hh hsize h
  obtain ⟨e', rfl, s2, n2, f2⟩ := extents_honest hh' hsize h'
  have : bytes e = bytes e' := by
    apply List.ext_getElem (by omega)
    intro j h1 h2
    rw [f1, f2]
  rw [run_injective (shortest_unique s1 s2 this)]

theorem and_three (a : Nat) : a &&& (stateHole ||| stateZero) = a % 4 :=
  Nat.and_two_pow_sub_one_eq_mod a 2

theorem bit_zero (a d : Nat) (hd : d = 0 ∨ d = 4 ∨ d = 8) :
    decide ((norm .alloc a ||| d) &&& stateZero ≠ 0) = decide (a / 2 % 2 = 1) := by
  simp only [norm, and_three]
  have : a % 4 = 0 ∨ a % 4 = 1 ∨ a % 4 = 2 ∨ a % 4 = 3 := by omega
  rcases this with h | h | h | h <;> rw [h]
  · rw [show decide (a / 2 % 2 = 1) = false by simp; omega]
    rcases hd with rfl | rfl | rfl <;> decide
  · rw [show decide (a / 2 % 2 = 1) = false by simp; omega]
    rcases hd with rfl | rfl | rfl <;> decide
  · rw [show decide (a / 2 % 2 = 1) = true by simp; omega]
    rcases hd with rfl | rfl | rfl <;> decide
  · rw [show decide (a / 2 % 2 = 1) = true by simp; omega]
    rcases hd with rfl | rfl | rfl <;> decide

theorem bit_other (a d b : Nat) (hb : b = 4 ∨ b = 8) (hd : d = 0 ∨ d = b) :
    decide ((norm .alloc a ||| d) &&& b ≠ 0) = decide (d ≠ 0) := by
  simp only [norm, and_three]
  have : a % 4 = 0 ∨ a % 4 = 1 ∨ a % 4 = 2 ∨ a % 4 = 3 := by omega
  rcases this with h | h | h | h <;> rw [h] <;> rcases hb with rfl | rfl <;>
    rcases hd with rfl | rfl <;> decide

/-- The zero extents are true: an extent is zero where the allocation flags have the zero bit
(value 2), and a hole where the allocation depth is 0. -/
theorem C21_zero_flags {i : NbdInfo} {mb : Nat} {s : Server} {t : Truth} {zs : List ZeroExtent}
    (hh : s.Honest t i.exportSize) (hb : i.hasBaseAllocation = true)
    (h : nbdZero i (wireClient mb s) = .ok zs) (z : ZeroExtent) (hz : z ∈ zs) (k : Nat)
    (hk : z.start ≤ k ∧ k < z.start + z.length) :
    z.zero = decide (t.alloc k / 2 % 2 = 1) ∧
    z.hole = some (match t.depth with | some d => decide (d k = 0) | none => false) := by
  have hsize : 0 < i.exportSize := by
    rcases Nat.eq_zero_or_pos i.exportSize with h0 | h0
    · rw [(C20_counterexample_empty _ i hb h0).1] at h
      simp at h
    · exact h0
  unfold nbdZero at h
  simp only [hb, Bool.not_true, Bool.false_eq_true, ↓reduceIte] at h
  split at h
  · simp at h
  next l hl =>
    obtain ⟨exts, rfl, hsh, hlen, hf⟩ := extents_honest hh hsize hl
    obtain ⟨zs', h1, h2, h3⟩ := zeroExtents_spec (shortest_pos hsh) 0
    rw [h1] at h
    simp only [Except.ok.injEq] at h
    subst h
    obtain ⟨g1, -, g3, g4⟩ := h3 z hz k hk.1 hk.2
    rw [hf] at g3 g4
    rw [g3, g4, Nat.sub_zero]
    simp only [trueFlags, Bool.false_eq_true, ↓reduceIte]
    cases t.depth with
    | none =>
      refine ⟨bit_zero _ _ (.inl rfl), ?_⟩
      rw [show extentBacking = 8 from rfl, bit_other _ _ _ (.inr rfl) (.inl rfl)]
      rfl
    | some d =>
      have hd : norm .depth (d k) = 0 ∨ norm .depth (d k) = 8 := by
        by_cases h0 : d k = 0
        · exact .inr (by simp [norm, h0, extentBacking])
        · exact .inl (by simp [norm, h0])
      refine ⟨bit_zero _ _ (hd.elim .inl fun h => .inr (.inr h)), ?_⟩
      rw [show extentBacking = 8 from rfl, bit_other _ _ _ (.inr rfl) hd]
      simp [norm, extentBacking]

/-- The dirty extents are true: zero as above, dirty where the lowest bit of the flags in the dirty
bitmap context is set. -/
theorem C21_dirty_flags {i : NbdInfo} {mb : Nat} {s : Server} {t : Truth} {zs : List DirtyExtent}
    (hsize : 0 < i.exportSize) (hh : s.Honest t i.exportSize) {bitmap : Nat → Nat}
    (hb : t.dirty = some bitmap) (h : nbdDirty i (wireClient mb s) = .ok zs) (z : DirtyExtent)
    (hz : z ∈ zs) (k : Nat) (hk : z.start ≤ k ∧ k < z.start + z.length) :
    z.zero = decide (t.alloc k / 2 % 2 = 1) ∧ z.dirty = decide (bitmap k % 2 = 1) := by
  unfold nbdDirty at h
  split at h
  · simp at h
  · split at h
    · simp at h
    next l hl =>
    obtain ⟨exts, rfl, hsh, hlen, hf⟩ := extents_honest hh hsize hl
    obtain ⟨zs', h1, h2, h3⟩ := dirtyExtents_spec (shortest_pos hsh) 0
    rw [h1] at h
    simp only [Except.ok.injEq] at h
    subst h
    obtain ⟨g1, -, g3, g4⟩ := h3 z hz k hk.1 hk.2
    rw [hf] at g3 g4
    rw [g3, g4, Nat.sub_zero]
    simp only [trueFlags, ↓reduceIte, hb]
    have h1 : bitmap k &&& stateDirty = bitmap k % 2 := Nat.and_one_is_mod _
    have hd : norm .dirty (bitmap k) = 0 ∨ norm .dirty (bitmap k) = 4 := by
      simp only [norm, h1]
      by_cases h0 : bitmap k % 2 ≠ 0
      · exact .inr (by simp [h0, extentDirty])
      · exact .inl (by simp [h0])
    refine ⟨bit_zero _ _ (hd.elim .inl fun h => .inr (.inl h)), ?_⟩
    rw [show extentDirty = 4 from rfl, bit_other _ _ _ (.inl rfl) hd]
    simp only [norm, h1, extentDirty]
    by_cases h0 : bitmap k % 2 = 0
    · simp [h0]
    · have : bitmap k % 2 = 1 := by omega
      simp [this]

/-- An image with 10 bytes: 4 zero bytes, then data; bytes 2 to 5 are dirty. -/
def exampleTruth : Truth where
  alloc k := if k < 4 then 3 else 0
  depth := none
  dirty := some fun k => if 2 ≤ k ∧ k < 6 then 1 else 0

/-- A server reporting 4 bytes at a time for one context, and the rest for the other. -/
def exampleServer : Server := fun _ off _ =>
  .ok { alloc := some (if off < 4 then [(4 - off, 3), (2, 0)] else [(20 - off, 0)])
        depth := none
        dirty := some (if off < 2 then [(2 - off, 0), (4, 1), (1, 0)]
          else if off < 6 then [(6 - off, 1)] else [(10 - off, 0)]) }

/-- The extents of the example, and the same from another server that reports one byte at a time. -/
example : (nbdDirty ⟨10, true, true⟩ (wireClient 1 exampleServer)).toOption =
      some [⟨0, 2, false, true⟩, ⟨2, 2, true, true⟩, ⟨4, 2, true, false⟩, ⟨6, 4, false, false⟩] ∧
    (nbdDirty ⟨10, true, true⟩ (wireClient 1 fun _ off _ =>
      .ok ⟨some [(1, exampleTruth.alloc off)], none,
        some [(1, if 2 ≤ off ∧ off < 6 then 1 else 0)]⟩)).toOption =
      some [⟨0, 2, false, true⟩, ⟨2, 2, true, true⟩, ⟨4, 2, true, false⟩, ⟨6, 4, false, false⟩] := by
  decide +kernel

/-- The example meets the hypotheses of the theorems. -/
example : exampleServer.Honest exampleTruth 10 ∧ exampleServer.Answers 1 true 10 := by
  constructor
  · intro n off len r ho hr
    simp only [exampleServer, Except.ok.injEq] at hr
    subst hr
    have : off = 0 ∨ off = 1 ∨ off = 2 ∨ off = 3 ∨ off = 4 ∨ off = 5 ∨ off = 6 ∨ off = 7 ∨ off = 8 ∨
      off = 9 := by omega
    refine ⟨?_, by simp, fun _ => rfl, ?_⟩
    · rintro l hl
      simp only [Option.some.injEq] at hl
      subst hl
      unfold Describes
      rcases this with rfl | rfl | rfl | rfl | rfl | rfl | rfl | rfl | rfl | rfl <;> decide +kernel
    · rintro l hl
      simp only [Option.some.injEq] at hl
      subst hl
      refine ⟨_, rfl, ?_⟩
      unfold Describes
      rcases this with rfl | rfl | rfl | rfl | rfl | rfl | rfl | rfl | rfl | rfl <;> decide +kernel
  · intro n off len ho
    refine ⟨_, _, rfl, rfl, ?_, by simp, ?_, fun _ => rfl⟩
    · unfold Sendable
      split <;> simp <;> omega
    · intro l hl
      simp only [Option.some.injEq] at hl
      subst hl
      unfold Sendable
      split
      · simp; omega
      · split <;> simp <;> omega

/-! ## C35 -/

theorem nat_not_neg (n : Nat) : ((n : Int) < 0) = False := by
  simp only [eq_iff_iff, iff_false]
  omega

/-- A zero extent survives the JSON API. -/
theorem C35_zero_dict (e : ZeroExtent) : ZeroExtent.fromDict e.toDict = some e := by
  obtain ⟨s, l, z, h⟩ := e
  have n1 : lit "hole" ≠ lit "start" := by decide
  have n2 : lit "zero" ≠ lit "start" := by decide
  have n3 : lit "length" ≠ lit "start" := by decide
  have n4 : lit "hole" ≠ lit "length" := by decide
  have n5 : lit "zero" ≠ lit "length" := by decide
  have n6 : lit "hole" ≠ lit "zero" := by decide
  cases h <;>
    simp [ZeroExtent.fromDict, ZeroExtent.toDict, natItem, boolItem, item, Json.get, n1, n2, n3, n4,
      n5, n6, boolOrNull, nat_not_neg]

/-- A dirty extent survives the JSON API. -/
theorem C35_dirty_dict (e : DirtyExtent) : DirtyExtent.fromDict e.toDict = some e := by
  obtain ⟨s, l, d, z⟩ := e
  have n1 : lit "zero" ≠ lit "start" := by decide
  have n2 : lit "dirty" ≠ lit "start" := by decide
  have n3 : lit "length" ≠ lit "start" := by decide
  have n4 : lit "zero" ≠ lit "length" := by decide
  have n5 : lit "dirty" ≠ lit "length" := by decide
  have n6 : lit "zero" ≠ lit "dirty" := by decide
  simp [DirtyExtent.fromDict, DirtyExtent.toDict, natItem, boolItem, item, Json.get, n1, n2, n3, n4,
      n5, n6, nat_not_neg]

theorem fromDicts_map {α : Type} {f : Json → Option α} {g : α → Json} (h : ∀ a, f (g a) = some a)
    (l : List α) : fromDicts f (l.map g) = .ok l := by
  induction l with
  | nil => rfl
  | cons a l ih => simp [fromDicts, h, ih]

/-- The client gets exactly the zero extents of the backend, when JSON text is read back as it was
written. -/
theorem C35_zero {τ : Type} {dumps : Dicts → τ} {loads : τ → Option Dicts}
    (json : ∀ d, loads (dumps d) = some d) (ticketId : Str) (ht : ticketId ≠ []) (dirtyTicket : Bool)
    (exts : List ZeroExtent) (dirty : Except Err (List DirtyExtent)) :
    let r := respond dumps (handler ticketId (extentsQuery (lit "zero")) none dirtyTicket (.ok exts) dirty).1
    getExtents loads ZeroExtent.fromDict r.1 r.2 = .ok exts := by
  have hq : enumQuery (extentsQuery (lit "zero")) (lit "context") [lit "zero", lit "dirty"] (lit "zero")
      = .ok (lit "zero") := rfl
  have n1 : (lit "zero" = lit "dirty") = False := by simp; decide
  simp only [handler, if_neg ht, hq, n1, decide_false, Bool.false_and, Bool.false_eq_true, ↓reduceIte,
    Except.map, respond, getExtents, json]
  exact fromDicts_map C35_zero_dict exts

/-- The client gets exactly the dirty extents of the backend. -/
theorem C35_dirty {τ : Type} {dumps : Dicts → τ} {loads : τ → Option Dicts}
    (json : ∀ d, loads (dumps d) = some d) (ticketId : Str) (ht : ticketId ≠ [])
    (zero : Except Err (List ZeroExtent)) (exts : List DirtyExtent) :
    let r := respond dumps (handler ticketId (extentsQuery (lit "dirty")) none true zero (.ok exts)).1
    getExtents loads DirtyExtent.fromDict r.1 r.2 = .ok exts := by
  have hq : enumQuery (extentsQuery (lit "dirty")) (lit "context") [lit "zero", lit "dirty"] (lit "zero")
      = .ok (lit "dirty") := rfl
  simp only [handler, if_neg ht, hq, decide_true, Bool.not_true, Bool.and_false, Bool.false_eq_true,
    ↓reduceIte, Except.map, respond, getExtents, json]
  exact fromDicts_map C35_dirty_dict exts

/-- C35: the client takes only complete answers: the extents it gets are those of the document of an answer with status
200, one extent for every object, in order; anything else is an error. -/
theorem C35_answers {τ α : Type} (loads : τ → Option Dicts) (f : Json → Option α) (status : Nat) (body : τ) (l : List α) :
    getExtents loads f status body = .ok l ↔
      status = 200 ∧ ∃ ds, loads body = some ds ∧ ds.length = l.length ∧ ∀ i : Nat, ∀ d, ds[i]? = some d → ∃ e, l[i]? = some e ∧ f d = some e := by
  have key : ∀ (ds : Dicts) (l : List α), fromDicts f ds = .ok l ↔ ds.map f = l.map some := by
    intro ds
    induction ds with
    | nil => intro l; cases l <;> simp [fromDicts]
    | cons d ds ih =>
      intro l
      simp only [fromDicts]
      cases hd : f d with
      | none => cases l <;> simp [hd]
      | some e =>
        cases hr : fromDicts f ds with
        | error x =>
          have : ∀ l : List α, ds.map f ≠ l.map some := fun l h => by rw [(ih l).2 h] at hr; cases hr
          cases l with
          | nil => simp
          | cons a l => simp [hd, this l]
        | ok es =>
          have h1 := (ih es).1 hr
          cases l with
          | nil => simp
          | cons a l =>
            simp only [Except.ok.injEq, List.cons.injEq, List.map_cons, hd, Option.some.injEq, h1]
            constructor
            · rintro ⟨rfl, rfl⟩; exact ⟨rfl, rfl⟩
            · rintro ⟨rfl, h⟩
              exact ⟨rfl, (List.map_inj_right fun _ _ h => Option.some.inj h).1 h⟩
  have key2 : ∀ (ds : Dicts), ds.map f = l.map some ↔ ds.length = l.length ∧ ∀ i : Nat, ∀ d, ds[i]? = some d → ∃ e, l[i]? = some e ∧ f d = some e := by
    intro ds
    constructor
    · intro h
      refine ⟨by simpa using congrArg List.length h, fun i d hd => ?_⟩
      have := congrArg (fun x => x[i]?) h
      simp only [List.getElem?_map, hd, Option.map_some] at this
      cases hl : l[i]? with
      | none => simp [hl] at this
      | some e => exact ⟨e, rfl, by simpa [hl] using this⟩
    · rintro ⟨h1, h2⟩
      apply List.ext_getElem? fun i => ?_
      simp only [List.getElem?_map]
      cases hd : ds[i]? with
      | none =>
        have : l[i]? = none := by rw [List.getElem?_eq_none_iff] at hd ⊢; omega
        simp [this]
      | some d =>
        obtain ⟨e, he, hf⟩ := h2 i d hd
        simp [he, hf]
  unfold getExtents
  split
  · rename_i h; simp [h]
  · split
    · rename_i h; simp [h]
    · rename_i h1 h2
      have h200 : status = 200 := Classical.byContradiction h2
      cases hl : loads body with
      | none => simp
      | some ds => simp [h200, key, key2]

/-- The client never gets extents when the backend failed, when the ticket does not allow
reading, or, for dirty extents, when the ticket is not for an incremental backup. -/
theorem C35_refused {τ : Type} {dumps : Dicts → τ} {loads : τ → Option Dicts} (ticketId : Str)
    (context : Str) (auth : Option Err) (dirtyTicket : Bool)
    (zero : Except Err (List ZeroExtent)) (dirty : Except Err (List DirtyExtent)) {α : Type}
    (fromDict : Json → Option α)
    (h : ticketId = [] ∨ auth ≠ none ∨ (context ≠ lit "zero" ∧ context ≠ lit "dirty") ∨
      (context = lit "dirty" ∧ (dirtyTicket = false ∨ ∃ e, dirty = .error e)) ∨
      (context = lit "zero" ∧ ∃ e, zero = .error e)) :
    let r := respond dumps (handler ticketId (extentsQuery context) auth dirtyTicket zero dirty).1
    r.1 ≠ 200 ∧ ∃ e, getExtents loads fromDict r.1 r.2 = .error e := by
  have key : ∀ res : Except HErr Dicts, (∃ e, res = .error e ∧ e ≠ .http 200) →
      (respond dumps res).1 ≠ 200 ∧
        ∃ e, getExtents loads fromDict (respond dumps res).1 (respond dumps res).2 = .error e := by
    rintro res ⟨e, rfl, he⟩
    cases e with
    | http code =>
      have hc : code ≠ 200 := fun h => he (by rw [h])
      refine ⟨hc, ?_⟩
      by_cases h4 : code = 404
      · exact ⟨unsupported, if_pos h4⟩
      · exact ⟨.exception "http.Error", (if_neg h4).trans (if_pos hc)⟩
    | other => exact ⟨by simp [respond], .exception "http.Error", by simp [respond, getExtents]⟩
    | socket => exact ⟨by simp [respond], .exception "http.Error", by simp [respond, getExtents]⟩
  apply key
  unfold handler
  by_cases ht : ticketId = []
  · exact ⟨_, by rw [if_pos ht], by simp⟩
  rw [if_neg ht]
  cases auth with
  | some e => cases e <;> exact ⟨_, rfl, by simp⟩
  | none =>
    have hq : enumQuery (extentsQuery context) (lit "context") [lit "zero", lit "dirty"] (lit "zero")
      = if context ∈ [lit "zero", lit "dirty"] then .ok context else .error (.http 400) := rfl
    simp only [hq]
    by_cases hm : context ∈ [lit "zero", lit "dirty"]
    · rw [if_pos hm]
      simp only
      by_cases hd : context = lit "dirty"
      · subst hd
        have n1 : lit "dirty" ≠ lit "zero" := by decide
        simp only [ht, ne_eq, not_true_eq_false, n1, not_false_eq_true, false_or, true_and,
          and_false, or_false, false_and] at h
        simp only [decide_true, Bool.true_and, ↓reduceIte]
        rcases h with h | ⟨e, rfl⟩
        · exact ⟨.http 404, by simp [h], by simp⟩
        · cases dirtyTicket with
          | false => exact ⟨.http 404, by simp, by simp⟩
          | true =>
            by_cases he : e = unsupported
            · exact ⟨.http 404, by simp [Except.map, he], by simp⟩
            · exact ⟨.other, by simp [Except.map, he], by simp⟩
      · have hz : context = lit "zero" := by
          simp only [List.mem_cons, List.not_mem_nil, or_false] at hm
          exact hm.resolve_right hd
        have : ∃ e, zero = .error e := by
          rcases h with h | h | h | h | h
          · exact absurd h ht
          · exact absurd rfl h
          · exact absurd hz h.1
          · exact absurd h.1 hd
          · exact h.2
        obtain ⟨e, rfl⟩ := this
        simp only [hd, decide_false, Bool.false_and, Bool.false_eq_true, ↓reduceIte]
        by_cases he : e = unsupported
        · exact ⟨.http 404, by simp [Except.map, he], by simp⟩
        · exact ⟨.other, by simp [Except.map, he], by simp⟩
    · rw [if_neg hm]
      exact ⟨_, rfl, by simp⟩

/-- Old servers do not report holes, and do not report zero for dirty extents: the client gets no
information about holes, and dirty extents with data. -/
theorem C35_old_server (start length : Nat) (b : Bool) :
    ZeroExtent.fromDict (.obj [(lit "start", .int start), (lit "length", .int length),
      (lit "zero", .bool b)]) = some ⟨start, length, b, none⟩ ∧
    DirtyExtent.fromDict (.obj [(lit "start", .int start), (lit "length", .int length),
      (lit "dirty", .bool b)]) = some ⟨start, length, b, false⟩ := by
  have n2 : lit "zero" ≠ lit "start" := by decide
  have n3 : lit "length" ≠ lit "start" := by decide
  have n5 : lit "zero" ≠ lit "length" := by decide
  have n6 : lit "zero" ≠ lit "hole" := by decide
  have n7 : lit "length" ≠ lit "hole" := by decide
  have n8 : lit "start" ≠ lit "hole" := by decide
  have m2 : lit "dirty" ≠ lit "start" := by decide
  have m5 : lit "dirty" ≠ lit "length" := by decide
  have m6 : lit "dirty" ≠ lit "zero" := by decide
  have m7 : lit "length" ≠ lit "zero" := by decide
  have m8 : lit "start" ≠ lit "zero" := by decide
  constructor
  · simp [ZeroExtent.fromDict, natItem, boolItem, item, Json.get, n2, n3, n5, n6, n7, n8, nat_not_neg]
  · simp [DirtyExtent.fromDict, natItem, boolItem, item, Json.get, n3, m2, m5, m6, m7, m8,
      nat_not_neg]

/-- A concrete case: a ticket, a JSON encoding that is read back (here: no encoding), and two
extents. -/
example : getExtents (τ := Dicts) some DirtyExtent.fromDict
      (respond id (handler (lit "t") (extentsQuery (lit "dirty")) none true (.ok [])
        (.ok [⟨0, 2, true, false⟩, ⟨2, 3, false, true⟩])).1).1
      (respond id (handler (lit "t") (extentsQuery (lit "dirty")) none true (.ok [])
        (.ok [⟨0, 2, true, false⟩, ⟨2, 3, false, true⟩])).1).2
    = .ok [⟨0, 2, true, false⟩, ⟨2, 3, false, true⟩] :=
  C35_dirty (fun _ => rfl) _ (by decide) _ _

/-- An answer with an object that is not an extent after one that is: an error, not a shorter list. -/
example : ¬ ∃ l, getExtents (τ := Dicts) some ZeroExtent.fromDict 200
    [ZeroExtent.toDict ⟨0, 2, true, some false⟩, .obj []] = .ok l := by
  rintro ⟨l, h⟩
  obtain ⟨_, ds, hd, _, h⟩ := (C35_answers _ _ _ _ _).1 h
  cases hd
  obtain ⟨e, _, he⟩ := h 1 _ rfl
  simp [ZeroExtent.fromDict, natItem, item, Json.get] at he

end Imageio.Props
