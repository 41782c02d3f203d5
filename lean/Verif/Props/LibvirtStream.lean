import Verif.Lemmas.LibvirtStream
import Verif.Props.SparseStream

/-!
C72: copying a libvirt volume to the server (`examples/libvirt-stream`).
-/
namespace Imageio.Props
open HttpBackend SparseStream LibvirtStream Spec Spec.Sparse Spec.Volume

/-- C72: a copy never changes bytes after the end of the target; if it succeeds the rest of a larger
target reads as zeroes and everything is on the storage. -/
theorem C72_copy {σ : Type} {S : HttpBackend.Server σ} (L : Lawful S.B) (hS : S.Proper)
    (bufSize srcSize : Nat) (hbuf : 0 < bufSize) (s : LibvirtStream.Stream) (hv : Valid s.segs)
    (hsrc : volumeLength s.segs = srcSize) (w : World σ) (hi : L.Inv w.srv) {n : Nat}
    (hn : (HttpBackend.size S w).1 = .ok n) {r : Except Err Unit} {w' : World σ}
    {s' : LibvirtStream.Stream} (h : copyVolume S bufSize srcSize s w = (r, w', s')) :
    L.Inv w'.srv ∧ (∀ j, n ≤ j → L.content w'.srv j = L.content w.srv j) ∧
    (r = .ok () → srcSize ≤ n ∧ (∀ j, srcSize ≤ j → j < n → L.content w'.srv j = 0) ∧
      (w.client.canFlush = true ∨ 0 < n → L.durable w'.srv = L.content w'.srv)) := by
  obtain ⟨h1, h2⟩ := copyVolume_spec (reliable := False) L hS bufSize srcSize hbuf s hv hsrc w hi
    (fun h => h.elim) h
  rcases h2 with ⟨h2, ⟨e, he⟩, -⟩ | ⟨m, hm, h2, h3, h4, -⟩
  · refine ⟨h1, fun j _ => by rw [h2], fun hr => ?_⟩
    rw [hr] at he; cases he
  · rw [hn] at hm
    cases hm
    refine ⟨h1, h3, fun hr => ⟨h2, fun j ha hb => ?_, (h4 hr).2⟩⟩
    rw [(h4 hr).1]
    exact if_pos ⟨ha, by simp only [Frame.start, Frame.length]; omega⟩

/-- C72: a volume larger than the target is refused before the target is changed. -/
theorem C72_small_target {σ : Type} {S : HttpBackend.Server σ} (L : Lawful S.B) (hS : S.Proper)
    (bufSize srcSize : Nat) (hbuf : 0 < bufSize) (s : LibvirtStream.Stream) (hv : Valid s.segs)
    (hsrc : volumeLength s.segs = srcSize) (w : World σ) (hi : L.Inv w.srv) {n : Nat}
    (hn : (HttpBackend.size S w).1 = .ok n) (hlt : n < srcSize) {r : Except Err Unit}
    {w' : World σ} {s' : LibvirtStream.Stream}
    (h : copyVolume S bufSize srcSize s w = (r, w', s')) :
    (∃ e, r = .error e) ∧ L.content w'.srv = L.content w.srv := by
  obtain ⟨-, h2⟩ := copyVolume_spec (reliable := False) L hS bufSize srcSize hbuf s hv hsrc w hi
    (fun h => h.elim) h
  rcases h2 with ⟨h2, h3, -⟩ | ⟨m, hm, h2, -⟩
  · exact ⟨h3, h2⟩
  · rw [hn] at hm
    cases hm
    omega

/-- C72: a copy to a target that is large enough succeeds if nothing fails. -/
theorem C72_succeeds {σ : Type} {S : HttpBackend.Server σ} (L : Lawful S.B) (hS : S.Proper)
    (bufSize srcSize : Nat) (hbuf : 0 < bufSize) (s : LibvirtStream.Stream) (hv : Valid s.segs)
    (hsrc : volumeLength s.segs = srcSize) (w : World σ) (hi : L.Inv w.srv) {n : Nat}
    (hn : (HttpBackend.size S w).1 = .ok n) (hle : srcSize ≤ n) (hticket : n ≤ S.ticketSize)
    (hcalls : ∀ c ∈ s.calls, ∃ k, c = .most k) (hg : ∀ n ∈ w.nets, n.Good)
    (hm : ¬ L.MayFail 0 n) :
    ∃ w' s', copyVolume S bufSize srcSize s w = (.ok (), w', s') := by
  cases hc : copyVolume S bufSize srcSize s w with
  | mk r x =>
  obtain ⟨w', s'⟩ := x
  cases r with
  | ok u => exact ⟨w', s', rfl⟩
  | error e =>
    exfalso
    obtain ⟨-, h2⟩ := copyVolume_spec (reliable := True) L hS bufSize srcSize hbuf s hv hsrc w hi
      (fun _ => hg) hc
    rcases h2 with ⟨-, -, ⟨e, he⟩ | ⟨m, hm, h2⟩⟩ | ⟨m, hm', h2, -, -, h3⟩
    · rw [hn] at he; cases he
    · rw [hn] at hm; cases hm; omega
    · rw [hn] at hm'
      cases hm'
      rcases h3 e rfl with h3 | ⟨k, hk, h3⟩
      · apply h3
        intro c hc
        obtain ⟨k, rfl⟩ := hcalls c hc
        exact ⟨nofun, nofun⟩
      · rcases h3 with h3 | h3 | ⟨i, hi1, hi2⟩
        · exact h3 trivial
        · omega
        · refine hm ⟨i, Nat.le_trans hi1 ?_, hi2⟩
          first
          | exact Nat.mul_le_mul_right _ (Nat.div_le_div_right (by omega))
          | omega

/-- The data is one piece at the start of the volume. -/
def HolesLast (segs : List Seg) : Prop :=
  ∃ ds : List Bytes, segs = ds.map Seg.data ∨ ∃ n, segs = ds.map Seg.data ++ [.hole n]

theorem effect_data (ds : List Bytes) (tail : List Seg) : ∀ (off : Nat) (c : Nat → Byte),
    applyAll (effect off (ds.map Seg.data ++ tail)) c =
    applyAll (effect (off + ds.flatten.length) tail) ((Frame.data off ds.flatten).apply c) := by
  induction ds with
  | nil =>
    intro off c
    simp [apply_empty]
  | cons d t ih =>
    intro off c
    simp only [List.map_cons, List.cons_append, effect, applyAll, List.foldl_cons]
    have := ih (off + d.length) ((Frame.data off d).apply c)
    simp only [applyAll] at this
    rw [this, apply_append]
    simp only [List.flatten_cons, List.length_append, Nat.add_assoc]

theorem volumeBytes_data (ds : List Bytes) : volumeBytes (ds.map Seg.data) = ds.flatten := by
  induction ds with
  | nil => rfl
  | cons d t ih =>
    simp only [List.map_cons, volumeBytes, List.flatMap_cons, segBytes, List.flatten_cons] at ih ⊢
    rw [ih]

theorem volumeBytes_append (a b : List Seg) :
    volumeBytes (a ++ b) = volumeBytes a ++ volumeBytes b := by
  simp [volumeBytes]

theorem volumeBytes_length (segs : List Seg) : (volumeBytes segs).length = volumeLength segs := by
  induction segs with
  | nil => rfl
  | cons x t ih =>
    simp only [volumeBytes, volumeLength, List.flatMap_cons, List.length_append, List.map_cons,
      List.sum_cons] at ih ⊢
    rw [ih]
    cases x <;> simp [segBytes, segLength]

/-- C72 for volumes with a hole only at the end: a copy that succeeds leaves the bytes of the
volume on the target.  The full statement has no condition on the holes; it is false, see
`C72_counterexample_after_hole`. -/
theorem C72_bytes_partial {σ : Type} {S : HttpBackend.Server σ} (L : Lawful S.B) (hS : S.Proper)
    (bufSize srcSize : Nat) (hbuf : 0 < bufSize) (s : LibvirtStream.Stream) (hv : Valid s.segs)
    (hlast : HolesLast s.segs) (hsrc : volumeLength s.segs = srcSize) (w : World σ)
    (hi : L.Inv w.srv) {w' : World σ} {s' : LibvirtStream.Stream}
    (h : copyVolume S bufSize srcSize s w = (.ok (), w', s')) :
    load (L.content w'.srv) 0 srcSize = volumeBytes s.segs := by
  obtain ⟨-, h2⟩ := copyVolume_spec (reliable := False) L hS bufSize srcSize hbuf s hv hsrc w hi
    (fun h => h.elim) h
  rcases h2 with ⟨-, ⟨e, he⟩, -⟩ | ⟨n, -, -, -, h4, -⟩
  · cases he
  · obtain ⟨h4, -⟩ := h4 rfl
    have hbytes : ∀ j, j < srcSize → L.content w'.srv j = byteAt (volumeBytes s.segs) j := by
      intro j hj
      rw [h4]
      rw [show (Frame.zero srcSize (n - srcSize)).apply _ j = applyAll (effect 0 s.segs)
        (L.content w.srv) j from if_neg (by simp only [Frame.Covers, Frame.start]; omega)]
      obtain ⟨ds, hs | ⟨m, hs⟩⟩ := hlast
      · have := effect_data ds [] 0 (L.content w.srv)
        rw [List.append_nil] at this
        rw [hs, this, volumeBytes_data]
        have hl : ds.flatten.length = srcSize := by
          rw [← hsrc, hs, ← volumeBytes_length, volumeBytes_data]
        exact if_pos ⟨Nat.zero_le _, by simp only [Frame.start, Frame.length]; omega⟩
      · rw [hs, effect_data]
        have hl : ds.flatten.length + m = srcSize := by
          rw [← hsrc, hs, ← volumeBytes_length, volumeBytes_append, volumeBytes_data]
          simp [volumeBytes, segBytes]
        rw [volumeBytes_append, volumeBytes_data]
        simp only [effect, applyAll, List.foldl_cons, List.foldl_nil, Nat.zero_add, volumeBytes,
          List.flatMap_cons, List.flatMap_nil, segBytes, List.append_nil]
        unfold byteAt
        rw [List.getD_eq_getElem?_getD]
        by_cases hd : j < ds.flatten.length
        · rw [List.getElem?_append_left hd]
          rw [show (Frame.zero ds.flatten.length m).apply _ j = (Frame.data 0 ds.flatten).apply
            (L.content w.srv) j from if_neg (by simp only [Frame.Covers, Frame.start]; omega)]
          rw [show (Frame.data 0 ds.flatten).apply (L.content w.srv) j =
            (Frame.data 0 ds.flatten).byte j from
            if_pos ⟨Nat.zero_le _, by simp only [Frame.start, Frame.length]; omega⟩]
          simp [Frame.byte]
        · rw [List.getElem?_append_right (by omega), List.getElem?_replicate,
            if_pos (by omega)]
          rw [show (Frame.zero ds.flatten.length m).apply _ j =
            (Frame.zero ds.flatten.length m).byte j from
            if_pos ⟨by simp only [Frame.start]; omega,
              by simp only [Frame.start, Frame.length]; omega⟩]
          rfl
    apply List.ext_getElem
    · rw [load_length, volumeBytes_length, hsrc]
    · intro j h1 h2
      rw [load_length] at h1
      rw [load_getElem, Nat.zero_add, hbytes j h1]
      unfold byteAt
      rw [List.getD_eq_getElem?_getD, List.getElem?_eq_getElem h2]
      rfl

/-- C72: data after a hole is always written at the start of the hole. -/
theorem C72_counterexample_after_hole {σ : Type} {S : HttpBackend.Server σ} (L : Lawful S.B)
    (hS : S.Proper) (bufSize : Nat) (hbuf : 0 < bufSize) (a b : Bytes) (m : Nat)
    (ha : 0 < a.length) (hb : 0 < b.length) (hm : 0 < m) (calls : List Call) (w : World σ)
    (hi : L.Inv w.srv) {w' : World σ} {s' : LibvirtStream.Stream}
    (h : copyVolume S bufSize (a.length + m + b.length) ⟨[.data a, .hole m, .data b], calls⟩ w =
      (.ok (), w', s')) :
    load (L.content w'.srv) a.length b.length = b := by
  obtain ⟨-, h2⟩ := copyVolume_spec (reliable := False) L hS bufSize _ hbuf _
    (by
      intro x hx
      simp only [List.mem_cons, List.not_mem_nil, or_false] at hx
      rcases hx with rfl | rfl | rfl <;> assumption)
    (by simp [volumeLength, segLength, Nat.add_assoc]) w hi (fun h => h.elim) h
  rcases h2 with ⟨-, ⟨e, he⟩, -⟩ | ⟨n, -, -, -, h4, -⟩
  · cases he
  · obtain ⟨h4, -⟩ := h4 rfl
    apply List.ext_getElem
    · rw [load_length]
    · intro j h1 h2
      rw [load_length] at h1
      rw [load_getElem, h4]
      rw [show (Frame.zero (a.length + m + b.length) (n - (a.length + m + b.length))).apply _
        (a.length + j) = applyAll (effect 0 [.data a, .hole m, .data b]) (L.content w.srv)
          (a.length + j) from if_neg (by simp only [Frame.Covers, Frame.start]; omega)]
      simp only [effect, applyAll, List.foldl_cons, List.foldl_nil, Nat.zero_add]
      rw [show (Frame.data a.length b).apply _ (a.length + j) =
        (Frame.data a.length b).byte (a.length + j) from
        if_pos ⟨by simp only [Frame.start]; omega, by simp only [Frame.start, Frame.length]; omega⟩]
      simp only [Frame.byte, Nat.add_sub_cancel_left]
      rw [List.getD_eq_getElem?_getD, List.getElem?_eq_getElem h2]
      rfl

/-! ### A concrete volume -/

/-- A volume with data, a hole of 2 bytes, and data. -/
def holeVolume : LibvirtStream.Stream := ⟨[.data [1, 2], .hole 2, .data [3, 4]], [.most 0]⟩

theorem holeVolume_copied :
    (copyVolume sparseServer 4 6 holeVolume largeDisk).1.isOk = true ∧
    (copyVolume sparseServer 4 6 holeVolume largeDisk).2.1.srv.buf = [1, 2, 3, 4, 9, 9, 0, 0] ∧
    volumeBytes holeVolume.segs = [1, 2, 0, 0, 3, 4] := by decide +kernel

/-- C72: the bytes of a volume with a hole before data are not the bytes of the target, and old
data of the target is left inside the copied volume. -/
theorem C72_counterexample_corrupted :
    ∃ (s : LibvirtStream.Stream) (w w' : World Memory.State) (s' : LibvirtStream.Stream),
      Valid s.segs ∧ volumeLength s.segs = 6 ∧
      copyVolume sparseServer 4 6 s w = (.ok (), w', s') ∧
      load (Memory.lawful.content w'.srv) 0 6 ≠ volumeBytes s.segs ∧
      byteAt w'.srv.buf 4 = byteAt w.srv.buf 4 ∧ byteAt w.srv.buf 4 = 9 := by
  obtain ⟨h1, h2, h3⟩ := holeVolume_copied
  cases hc : copyVolume sparseServer 4 6 holeVolume largeDisk with
  | mk r x =>
  obtain ⟨w', s'⟩ := x
  rw [hc] at h1 h2
  cases r with
  | error e => cases h1
  | ok u =>
    refine ⟨holeVolume, largeDisk, w', s', ?_, by decide, hc, ?_, ?_, by decide⟩
    · intro x hx
      simp only [holeVolume, List.mem_cons, List.not_mem_nil, or_false] at hx
      rcases hx with rfl | rfl | rfl <;> decide
    · simp only at h2
      rw [h3, show Memory.lawful.content w'.srv = byteAt w'.srv.buf from rfl, h2]
      decide
    · simp only at h2
      rw [h2]
      decide

/-- A volume with a hole at the end, received in pieces of one byte. -/
def tailVolume : LibvirtStream.Stream :=
  ⟨[.data [1, 2], .data [3], .hole 3], [.most 0, .most 0, .most 0]⟩

theorem tailVolume_copied :
    (copyVolume sparseServer 2 6 tailVolume largeDisk).1.isOk = true ∧
    (copyVolume sparseServer 2 6 tailVolume largeDisk).2.1.srv.buf = [1, 2, 3, 0, 0, 0, 0, 0] := by
  decide +kernel

example : Valid tailVolume.segs ∧ HolesLast tailVolume.segs ∧ volumeLength tailVolume.segs = 6 ∧
    (HttpBackend.size sparseServer largeDisk).1.toOption = some 8 := by
  refine ⟨?_, ⟨[[1, 2], [3]], .inr ⟨3, rfl⟩⟩, rfl, by decide +kernel⟩
  intro x hx
  simp only [tailVolume, List.mem_cons, List.not_mem_nil, or_false] at hx
  rcases hx with rfl | rfl | rfl <;> decide

/-- The hypotheses of `C72_succeeds` hold for a file. -/
example : ∃ w' s', copyVolume blockServer 2 6 tailVolume blockDisk = (.ok (), w', s') := by
  refine C72_succeeds (S := blockServer) (File.lawful ⟨true, 4, true⟩ (by decide) True 8 (by decide))
    (toyServer_proper _ _ _ _ (by decide) (by decide)) 2 6 (by decide) tailVolume ?_ rfl blockDisk
    ⟨fun _ => rfl, fun _ => rfl⟩ (n := 8) rfl (by decide) (by decide) ?_ (by simp [blockDisk]) ?_
  · intro x hx
    simp only [tailVolume, List.mem_cons, List.not_mem_nil, or_false] at hx
    rcases hx with rfl | rfl | rfl <;> decide
  · intro c hc
    simp only [tailVolume, List.mem_cons, List.not_mem_nil, or_false, or_self] at hc
    exact ⟨0, hc⟩
  · rintro ⟨k, hk, hm⟩
    rcases hm with hm | hm
    · exact hm trivial
    · have h1 : k ≤ (0 + 8 + 4 - 1) / 4 * 4 := hk
      have h2 : 8 < k := hm.2
      omega

end Imageio.Props
