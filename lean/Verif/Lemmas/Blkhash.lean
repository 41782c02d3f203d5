import Verif.Spec.Checksum
import Verif.Spec.Extents
import Verif.Model.Blkhash

namespace Imageio.Blkhash
open Imageio.Spec Imageio.Extents

/-! ## is_zero -/

theorem isZeroFrom_iff {buf p : Bytes} {i : Nat} (hd : ∃ q, buf = q ++ p ∧ (∀ x ∈ q, x = 0) ∧
    q.length + i = 16) : isZeroFrom buf i p = true ↔ ∀ x ∈ buf, x = 0 := by
  induction i generalizing p with
  | zero =>
    obtain ⟨q, rfl, hq, hl⟩ := hd
    simp only [isZeroFrom, beq_iff_eq]
    constructor
    · intro h
      have key : ∀ k (hk : k < (q ++ p).length), (q ++ p)[k] = 0 := by
        intro k
        induction k using Nat.strongRecOn with
        | _ k ih =>
          intro hk
          by_cases hkq : k < q.length
          · rw [List.getElem_append_left hkq]
            exact hq _ (List.getElem_mem _)
          · rw [List.length_append] at hk
            rw [List.getElem_append_right (by omega)]
            have h1 : p[k - q.length]'(by omega) =
                ((q ++ p).take p.length)[k - q.length]'(by rw [h]; omega) := by
              simp only [h]
            rw [h1, List.getElem_take]
            exact ih _ (by omega) _
      intro x hx
      obtain ⟨k, hk, rfl⟩ := List.getElem_of_mem hx
      exact key k hk
    · intro h
      have e1 : q ++ p = List.replicate (q ++ p).length 0 := List.eq_replicate_of_mem h
      have e2 : p = List.replicate p.length 0 :=
        List.eq_replicate_of_mem fun x hx => h x (by simp [hx])
      rw [e1, List.take_replicate, List.length_append]
      conv => rhs; rw [e2]
      congr 1
      omega
  | succ i ih =>
    obtain ⟨q, rfl, hq, hl⟩ := hd
    cases p with
    | nil => simpa [isZeroFrom] using hq
    | cons x p =>
      simp only [isZeroFrom]
      by_cases hx : x = 0
      · rw [if_neg (by simpa using hx)]
        apply ih
        refine ⟨q ++ [x], by simp, ?_, by simp; omega⟩
        intro y hy
        rcases List.mem_append.1 hy with hy | hy
        · exact hq y hy
        · simp only [List.mem_singleton] at hy
          rw [hy, hx]
      · rw [if_pos hx]
        simp only [Bool.false_eq_true, List.mem_append, List.mem_cons, false_iff]
        intro h
        exact hx (h x (by simp))

theorem isZero_iff (buf : Bytes) : isZero buf = true ↔ ∀ x ∈ buf, x = 0 :=
  isZeroFrom_iff ⟨[], rfl, by simp, rfl⟩

theorem isZero_eq_zeros {buf : Bytes} (h : isZero buf = true) : buf = zeros buf.length :=
  List.eq_replicate_of_mem ((isZero_iff buf).1 h)

/-! ## chunks -/

theorem chunks_nil {α : Type} (n : Nat) : chunks n ([] : List α) = [] := by
  unfold chunks
  simp

theorem chunks_full {α : Type} {n : Nat} {a : List α} (hn : 0 < n) (ha : a.length = n) (b : List α) :
    chunks n (a ++ b) = a :: chunks n b := by
  rw [chunks, dif_pos ⟨hn, by intro h; simp at h; simp [h.1] at ha; omega⟩,
    List.take_left' ha, List.drop_left' ha]

theorem chunks_short {α : Type} {n : Nat} {a : List α} (hne : a ≠ []) (ha : a.length ≤ n) :
    chunks n a = [a] := by
  have hp := List.length_pos_iff.2 hne
  rw [chunks, dif_pos ⟨by omega, hne⟩, List.take_of_length_le ha, List.drop_of_length_le ha,
    chunks_nil]

/-! ## split -/

/-- The blocks for pieces with a zero flag for every byte: a block is zero if all its bytes are. -/
def blocksOf : Nat → List (List Bool) → List Block
  | _, [] => []
  | s, c :: cs => ⟨s, c.length, c.all id⟩ :: blocksOf (s + c.length) cs

/-- The zero flags of the bytes of extents. -/
def zeroFlags (es : List ZeroExtent) : List Bool := expand (es.map fun e => (e.length, e.zero))

@[simp] theorem zeroFlags_nil : zeroFlags [] = [] := rfl

@[simp] theorem zeroFlags_cons (e : ZeroExtent) (es : List ZeroExtent) :
    zeroFlags (e :: es) = List.replicate e.length e.zero ++ zeroFlags es := by
  simp [zeroFlags, expand]

theorem all_replicate {n : Nat} (z : Bool) (hn : 0 < n) : (List.replicate n z).all id = z := by
  obtain ⟨k, rfl⟩ := Nat.exists_eq_succ_of_ne_zero (Nat.ne_of_gt hn)
  cases z
  · simp [List.replicate_succ]
  · rw [List.all_eq_true]
    intro x hx
    simpa using (List.mem_replicate.1 hx).2

theorem completeBlocks_spec {n : Nat} (hn : 0 < n) (b : Block) (t : List Bool) :
    blocksOf b.start (chunks n (List.replicate b.length b.zero ++ t)) =
      (completeBlocks n b).1 ++ blocksOf (completeBlocks n b).2.start
        (chunks n (List.replicate (completeBlocks n b).2.length b.zero ++ t)) ∧
    (completeBlocks n b).2.length < n ∧ (completeBlocks n b).2.zero = b.zero ∧
    (completeBlocks n b).2.start + (completeBlocks n b).2.length = b.start + b.length := by
  induction hl : b.length using Nat.strongRecOn generalizing b with
  | _ k ih =>
    unfold completeBlocks
    by_cases h : 0 < n ∧ n ≤ b.length
    · rw [dif_pos h]
      obtain ⟨i1, i2, i3, i4⟩ := ih (b.split n).2.length (by simp only [Block.split]; omega) _ rfl
      simp only
      refine ⟨?_, i2, by rw [i3]; rfl, ?_⟩
      · have e : List.replicate b.length b.zero =
            List.replicate n b.zero ++ List.replicate (b.length - n) b.zero := by
          rw [List.replicate_append_replicate]; congr 1; omega
        rw [← hl, e, List.append_assoc, chunks_full hn (by simp), blocksOf, List.length_replicate,
          all_replicate _ hn, List.cons_append]
        congr 1
      · rw [i4]
        simp only [Block.split]
        omega
    · rw [dif_neg h, ← hl]
      simp only
      refine ⟨?_, by omega, ?_⟩ <;> simp

theorem splitLoop_spec {n : Nat} (hn : 0 < n) (es : List ZeroExtent) (s e : Nat)
    (ht : Tiles s (es.map fun z => (z.start, z.length)) e) :
    splitLoop n none es = blocksOf s (chunks n (zeroFlags es)) ∧
    ∀ (p : Block) (pend : List Bool), pend.length = p.length → pend ≠ [] → p.length < n →
      p.zero = pend.all id → p.start + p.length = s →
      splitLoop n (some p) es = blocksOf p.start (chunks n (pend ++ zeroFlags es)) := by
  induction es generalizing s with
  | nil =>
    constructor
    · simp [splitLoop, chunks_nil, blocksOf]
    · intro p pend h1 h2 h3 h4 h5
      rw [zeroFlags_nil, List.append_nil, chunks_short h2 (by omega)]
      simp only [splitLoop, blocksOf, h1, ← h4]
  | cons x es ih =>
    obtain ⟨xs, xl, xz, xh⟩ := x
    simp only [List.map_cons] at ht
    cases ht with
    | cons hlen ht =>
    obtain ⟨ih1, ih2⟩ := ih _ ht
    -- the rest of the loop body
    have body : ∀ (b : Block), b.zero = xz → b.start + b.length = s + xl →
        (splitCurrent n b).1 ++ splitLoop n (splitCurrent n b).2 es =
          blocksOf b.start (chunks n (List.replicate b.length xz ++ zeroFlags es)) := by
      intro b hz hb
      obtain ⟨c1, c2, c3, c4⟩ := completeBlocks_spec hn b (zeroFlags es)
      rw [hz] at c1 c3
      rw [c1]
      simp only [splitCurrent]
      congr 1
      by_cases hr : (completeBlocks n b).2.length = 0
      · simp only [hr, ne_eq, not_true_eq_false, ↓reduceIte, List.replicate_zero, List.nil_append]
        rw [ih1]
        congr 1
        omega
      · simp only [ne_eq, hr, not_false_eq_true, ↓reduceIte]
        refine ih2 _ _ (by simp) ?_ c2 ?_ (by omega)
        · simpa using hr
        · rw [c3, all_replicate _ (by omega)]
    constructor
    · simp only [splitLoop, zeroFlags_cons]
      exact body ⟨s, xl, xz⟩ rfl rfl
    · intro p pend h1 h2 h3 h4 h5
      rw [zeroFlags_cons]
      by_cases hs : p.length + min (n - p.length) xl < n
      · refine (if_pos hs).trans ?_
        have hm : min (n - p.length) xl = xl := by omega
        simp only
        rw [ih2 _ (pend ++ List.replicate xl xz) (by simp [h1, hm]) (by simp [h2]) (by simpa using hs)
          (by rw [List.all_append, ← h4, all_replicate _ hlen]) (by simp only; omega),
          List.append_assoc]
      · refine (if_neg hs).trans ?_
        have hm : min (n - p.length) xl = n - p.length := by omega
        simp only
        have e : List.replicate xl xz =
            List.replicate (n - p.length) xz ++ List.replicate (xl - (n - p.length)) xz := by
          rw [List.replicate_append_replicate]; congr 1; omega
        rw [hm, e, List.append_assoc, ← List.append_assoc pend,
          chunks_full hn (by simp; omega), blocksOf]
        congr 1
        · rw [List.length_append, List.length_replicate, h1, List.all_append, ← h4,
            all_replicate _ (by omega)]
        · refine (body ⟨s + (n - p.length), xl - (n - p.length), xz⟩ rfl (by simp only; omega)).trans ?_
          simp only
          congr 1
          rw [List.length_append, List.length_replicate]
          omega

/-! ## The checksum operation -/

theorem Hash.zero_input {func : Bytes → Bytes} {n : Nat} (h : Hash) (hb : h.blockSize = n)
    (hz : h.zeroDigest = func (zeros n)) (k : Nat) :
    (h.zero func k).input = h.input ++ func (zeros k) ∧ (h.zero func k).blockSize = n ∧
      (h.zero func k).zeroDigest = func (zeros n) := by
  unfold Hash.zero
  by_cases hk : k = h.blockSize
  · rw [if_pos hk]
    simp only [hz, hb, hk, and_self]
  · rw [if_neg hk]
    exact ⟨rfl, hb, hz⟩

/-- A valid description of the image: the extents tile it, and zero extents are zero. -/
structure Valid (content : Nat → Byte) (size : Nat) (es : List ZeroExtent) : Prop where
  tiles : Tiles 0 (es.map fun z => (z.start, z.length)) size
  zero : ∀ e ∈ es, e.zero = true → ∀ k, e.start ≤ k → k < e.start + e.length → content k = 0

theorem tiles_flags {content : Nat → Byte} {es : List ZeroExtent} {s e : Nat}
    (ht : Tiles s (es.map fun z => (z.start, z.length)) e)
    (hz : ∀ e ∈ es, e.zero = true → ∀ k, e.start ≤ k → k < e.start + e.length → content k = 0) :
    s + (zeroFlags es).length = e ∧
    ∀ k (h : k < (zeroFlags es).length), (zeroFlags es)[k] = true → content (s + k) = 0 := by
  induction es generalizing s with
  | nil =>
    simp only [List.map_nil] at ht
    cases ht
    simp
  | cons x es ih =>
    obtain ⟨xs, xl, xz, xh⟩ := x
    simp only [List.map_cons] at ht
    cases ht with
    | cons hlen ht =>
    obtain ⟨i1, i2⟩ := ih ht (fun e he => hz e (by simp [he]))
    constructor
    · simp only [zeroFlags_cons, List.length_append, List.length_replicate]
      omega
    · intro k hk hf
      simp only [zeroFlags_cons] at hf hk
      by_cases hkx : k < xl
      · rw [List.getElem_append_left (by simpa using hkx), List.getElem_replicate] at hf
        exact hz ⟨s, xl, xz, xh⟩ (by simp) hf (s + k) (by simp) (by simp only; omega)
      · rw [List.getElem_append_right (by simpa using hkx)] at hf
        simp only [List.length_replicate] at hf
        rw [List.length_append, List.length_replicate] at hk
        have := i2 (k - xl) (by omega) hf
        rwa [show s + xl + (k - xl) = s + k by omega] at this

/-- Reads inside the image are never short, in the states `F` (kept by reading). -/
structure FullReads {σ : Type} {B : Backend σ} (L : Lawful B) (F : σ → Prop) : Prop where
  seek : ∀ s n r s', L.Inv s → F s → B.seek s n = (r, s') → F s'
  readinto : ∀ s n r s', L.Inv s → F s → B.readinto s n = (r, s') → F s'
  full : ∀ s n d s', L.Inv s → F s → B.tell s % B.blockSize = 0 → n % B.blockSize = 0 →
    B.tell s + n ≤ B.size s → B.readinto s n = (.ok d, s') → d.length = n

@[simp] theorem load_length (c : Nat → Byte) (off n : Nat) : (load c off n).length = n := by
  simp [load]

theorem load_take (c : Nat → Byte) (off n k : Nat) : (load c off n).take k = load c off (min k n) := by
  simp [load, List.take_range, ← List.map_take]

theorem load_drop (c : Nat → Byte) (off n k : Nat) : (load c off n).drop k = load c (off + k) (n - k) := by
  apply List.ext_getElem
  · simp
  · intro i h1 h2
    simp [load, Nat.add_assoc]

theorem load_zeros {c : Nat → Byte} {off n : Nat} (h : ∀ i, i < n → c (off + i) = 0) :
    load c off n = zeros n := by
  apply List.ext_getElem
  · simp [zeros]
  · intro i h1 h2
    simp only [load, List.getElem_map, List.getElem_range, zeros, List.getElem_replicate]
    exact h i (by simpa using h1)

/-- The result of the loop of the checksum operation. -/
structure Hashed {σ : Type} {B : Backend σ} (L : Lawful B) (F : σ → Prop) (func : Bytes → Bytes)
    (n : Nat) (s0 : σ) (st : OpState σ) : Prop where
  inv : L.Inv st.src
  full : F st.src
  content : L.content st.src = L.content s0
  durable : L.durable st.src = L.durable s0
  size : B.size st.src = B.size s0
  buf : st.buf.length = n
  block : st.hash.blockSize = n
  zero : st.hash.zeroDigest = func (zeros n)

theorem opBlock_spec {σ : Type} {B : Backend σ} {L : Lawful B} {F : σ → Prop} (hf : FullReads L F)
    {func : Bytes → Bytes} {detect : Bool} {cancel : Nat → Bool} {n : Nat} {s0 : σ}
    {st : OpState σ} (h : Hashed L F func n s0 st) (a : Nat) (c : List Bool)
    (ha : a % B.blockSize = 0) (hcb : c.length % B.blockSize = 0) (hcn : c.length ≤ n)
    (hsz : a + c.length ≤ B.size s0)
    (hz : c.all id = true → ∀ i, i < c.length → L.content s0 (a + i) = 0)
    (r : Except Err Unit) (st' : OpState σ)
    (hr : opBlock B func detect cancel ⟨a, c.length, c.all id⟩ st = (r, st')) :
    Hashed L F func n s0 st' ∧
    ((r = .ok () ∧ st'.hash.input = st.hash.input ++ func (load (L.content s0) a c.length) ∧
        cancel st.chunks = false ∧ st'.chunks = st.chunks + 1) ∨
     (r = .error .canceled ∧ cancel st.chunks = true) ∨
     ∃ e, r = .error e ∧ External e ∧ L.mayFail (a + c.length)) := by
  have next : ∀ (st1 : OpState σ) (hh : Hash), Hashed L F func n s0 st1 → st1.chunks = st.chunks →
      hh.blockSize = n → hh.zeroDigest = func (zeros n) →
      hh.input = st.hash.input ++ func (load (L.content s0) a c.length) →
      ∀ r st', (if cancel st1.chunks then
          ((.error .canceled : Except Err Unit), { st1 with hash := hh, done := st1.done + c.length, chunks := st1.chunks + 1 })
        else (.ok (), { st1 with hash := hh, done := st1.done + c.length, chunks := st1.chunks + 1 })) = (r, st') →
      Hashed L F func n s0 st' ∧
      ((r = .ok () ∧ st'.hash.input = st.hash.input ++ func (load (L.content s0) a c.length) ∧
        cancel st.chunks = false ∧ st'.chunks = st.chunks + 1) ∨
       (r = .error .canceled ∧ cancel st.chunks = true) ∨
       ∃ e, r = .error e ∧ External e ∧ L.mayFail (a + c.length)) := by
    intro st1 hh h1 hc hb hd hi r st' he
    by_cases hcn : cancel st1.chunks = true
    · rw [if_pos hcn] at he
      obtain ⟨rfl, rfl⟩ := Prod.mk.inj he
      exact ⟨⟨h1.inv, h1.full, h1.content, h1.durable, h1.size, h1.buf, hb, hd⟩,
        .inr (.inl ⟨rfl, by rwa [hc] at hcn⟩)⟩
    · rw [if_neg hcn] at he
      obtain ⟨rfl, rfl⟩ := Prod.mk.inj he
      exact ⟨⟨h1.inv, h1.full, h1.content, h1.durable, h1.size, h1.buf, hb, hd⟩,
        .inl ⟨rfl, hi, by rw [hc] at hcn; simpa using hcn, by rw [← hc]⟩⟩
  unfold opBlock at hr
  simp only at hr
  by_cases hzero : c.all id = true
  · rw [if_pos hzero] at hr
    obtain ⟨z1, z2, z3⟩ := Hash.zero_input st.hash h.block h.zero c.length
    exact next st _ h rfl z2 z3 (by rw [z1, load_zeros (hz hzero)]) r st' hr
  · rw [if_neg hzero] at hr
    have hseek := L.seek st.src a
    have hfs := hf.seek st.src a
    generalize B.seek st.src a = x at hr hseek hfs
    obtain ⟨r1, s1⟩ := x
    obtain ⟨rfl, p1, p2, p3, p4, p5⟩ := hseek r1 s1 h.inv rfl
    have hF1 := hfs _ s1 h.inv h.full rfl
    have hlen : (st.buf.take c.length).length = c.length := by
      rw [List.length_take, h.buf]; omega
    simp only [hlen] at hr
    have hread := L.readinto s1 c.length
    have hrerr := L.readinto_err s1 c.length
    have hfull := hf.full s1 c.length
    have hfr := hf.readinto s1 c.length
    generalize B.readinto s1 c.length = x at hr hread hrerr hfull hfr
    obtain ⟨r2, s2⟩ := x
    have hF2 := hfr r2 s2 p1 hF1 rfl
    cases r2 with
    | error e =>
      simp only [Prod.mk.injEq] at hr
      obtain ⟨rfl, rfl⟩ := hr
      obtain ⟨q1, q2, q3, q4, q5, q6⟩ := hrerr e s2 p1 (by rwa [p2]) hcb rfl
      rw [p2] at q2
      exact ⟨⟨q3, hF2, by rw [q4, p3, h.content], by rw [q5, p4, h.durable], by rw [q6, p5, h.size],
        h.buf, h.block, h.zero⟩, .inr (.inr ⟨e, rfl, q1, q2⟩)⟩
    | ok data =>
      simp only at hr
      have hdl := hfull data s2 p1 hF1 (by rwa [p2]) hcb (by rw [p2, p5, h.size]; exact hsz) rfl
      obtain ⟨q1, q2, q3, q4, q5, q6, -⟩ := hread data s2 p1 (by rwa [p2]) hcb rfl
      have hdata : data = load (L.content s0) a c.length := by
        rw [q6, hdl, p2, p3, h.content]
      have hview : (data ++ st.buf.drop data.length).take c.length = data := List.take_left' hdl
      rw [hview] at hr
      have h1 : Hashed L F func n s0
          { st with src := s2, buf := data ++ st.buf.drop data.length } :=
        ⟨q1, hF2, by rw [q2, p3, h.content], by rw [q3, p4, h.durable], by rw [q4, p5, h.size],
          by simp [h.buf, hdl]; omega, h.block, h.zero⟩
      by_cases hd : (detect && isZero data) = true
      · rw [if_pos hd] at hr
        have hzd : data = zeros c.length := by
          simp only [Bool.and_eq_true] at hd
          rw [← hdl]
          exact isZero_eq_zeros hd.2
        obtain ⟨z1, z2, z3⟩ := Hash.zero_input st.hash h.block h.zero c.length
        exact next _ _ h1 rfl z2 z3 (by rw [z1, ← hzd, hdata]) r st' hr
      · rw [if_neg hd] at hr
        exact next _ (Hash.update func st.hash data) h1 rfl h.block h.zero
          (by simp only [Hash.update]; rw [hdata]) r st' hr

theorem opBlocks_spec {σ : Type} {B : Backend σ} {L : Lawful B} {F : σ → Prop} (hf : FullReads L F)
    {func : Bytes → Bytes} {detect : Bool} {cancel : Nat → Bool} {n : Nat} (hn : 0 < n)
    (hnb : n % B.blockSize = 0) {s0 : σ} (flags : List Bool) {st : OpState σ}
    (h : Hashed L F func n s0 st) (a : Nat) (ha : a % B.blockSize = 0)
    (hcb : flags.length % B.blockSize = 0) (hsz : a + flags.length ≤ B.size s0)
    (hz : ∀ i (h : i < flags.length), flags[i] = true → L.content s0 (a + i) = 0)
    (r : Except Err Unit) (st' : OpState σ)
    (hr : opBlocks B func detect cancel (blocksOf a (chunks n flags)) st = (r, st')) :
    Hashed L F func n s0 st' ∧
    ((r = .ok () ∧ st'.hash.input = st.hash.input ++
        (chunks n (load (L.content s0) a flags.length)).flatMap func ∧
        (∀ k, st.chunks ≤ k → k < st'.chunks → cancel k = false)) ∨
     (r = .error .canceled ∧ ∃ k, cancel k = true) ∨
     ∃ e k, r = .error e ∧ External e ∧ k ≤ a + flags.length ∧ L.mayFail k) := by
  induction hl : flags.length using Nat.strongRecOn generalizing flags st a with
  | _ m ih =>
    by_cases hne : flags = []
    · subst hne
      simp only [List.length_nil] at hl
      subst hl
      rw [chunks_nil, blocksOf, opBlocks] at hr
      obtain ⟨rfl, rfl⟩ := Prod.mk.inj hr
      refine ⟨h, .inl ⟨rfl, ?_, fun k h1 h2 => by omega⟩⟩
      simp [load, chunks_nil]
    · have hpos := List.length_pos_iff.2 hne
      rw [chunks, dif_pos ⟨hn, hne⟩, blocksOf, opBlocks] at hr
      have htl : (flags.take n).length = min n flags.length := List.length_take
      have hmod : (flags.take n).length % B.blockSize = 0 := by
        rw [htl]
        rcases Nat.le_total n flags.length with hle | hle
        · rw [Nat.min_eq_left hle]; exact hnb
        · rw [Nat.min_eq_right hle]; exact hcb
      have hall : (flags.take n).all id = true → ∀ i, i < (flags.take n).length →
          L.content s0 (a + i) = 0 := by
        intro hA i hi
        have hi' : i < flags.length := by omega
        apply hz i hi'
        have := List.all_eq_true.1 hA ((flags.take n)[i]) (List.getElem_mem _)
        simpa using this
      have hb := opBlock_spec hf (cancel := cancel) (detect := detect) h a (flags.take n) ha hmod
        (by omega) (by omega) hall
      generalize opBlock B func detect cancel ⟨a, (flags.take n).length, (flags.take n).all id⟩ st = x
        at hr hb
      obtain ⟨r1, st1⟩ := x
      obtain ⟨h1, hcase⟩ := hb r1 st1 rfl
      rcases hcase with ⟨rfl, hin, hc1, hc2⟩ | ⟨rfl, hc⟩ | ⟨e, rfl, he, hm⟩
      · simp only at hr
        have hdl : (flags.drop n).length = flags.length - n := List.length_drop
        have hrec := ih (flags.drop n).length (by omega) (flags.drop n) h1 (a + (flags.take n).length)
          (by rw [Nat.add_mod, ha, hmod]; simp)
          (by
            rw [hdl]
            rcases Nat.le_total n flags.length with hle | hle
            · have := Nat.sub_mod_eq_zero_of_mod_eq (m := flags.length) (n := n) (k := B.blockSize) (by omega)
              exact this
            · rw [Nat.sub_eq_zero_of_le hle]; simp)
          (by rw [htl, hdl]; omega)
          (by
            intro i hi hfi
            rw [List.getElem_drop] at hfi
            have := hz (n + i) (by omega) hfi
            rwa [show a + (flags.take n).length + i = a + (n + i) by omega])
          hr rfl
        refine ⟨hrec.1, ?_⟩
        rcases hrec.2 with ⟨rfl, hin2, hc3⟩ | ⟨rfl, hk⟩ | ⟨e, k, rfl, he, hk, hm⟩
        · left
          refine ⟨rfl, ?_, ?_⟩
          · rw [hin2, hin, List.append_assoc]
            congr 1
            rw [← hl]
            conv => rhs; rw [chunks, dif_pos ⟨hn, by
              intro h0
              have := congrArg List.length h0
              simp at this
              exact hne this⟩, List.flatMap_cons, load_take, load_drop]
            rw [htl, hdl]
            rcases Nat.le_total n flags.length with hle | hle
            · rw [Nat.min_eq_left hle]
            · rw [Nat.min_eq_right hle, Nat.sub_eq_zero_of_le hle]
              simp [load, chunks_nil]
          · intro k hk1 hk2
            by_cases hk3 : k = st.chunks
            · rw [hk3]; exact hc1
            · exact hc3 k (by omega) hk2
        · exact .inr (.inl ⟨rfl, hk⟩)
        · exact .inr (.inr ⟨e, k, rfl, he, by omega, hm⟩)
      · simp only at hr
        obtain ⟨rfl, rfl⟩ := Prod.mk.inj hr
        exact ⟨h1, .inr (.inl ⟨rfl, _, hc⟩)⟩
      · simp only at hr
        obtain ⟨rfl, rfl⟩ := Prod.mk.inj hr
        exact ⟨h1, .inr (.inr ⟨e, _, rfl, he, by omega, hm⟩)⟩

/-- The checksum operation. -/
theorem opRun_spec {σ : Type} {B : Backend σ} {L : Lawful B} {F : σ → Prop} (hf : FullReads L F)
    {func : Bytes → Bytes} {detect : Bool} {cancel : Nat → Bool} {buf : Bytes} (hn : 0 < buf.length)
    (hnb : buf.length % B.blockSize = 0) {s : σ} (hi : L.Inv s) (hF : F s) {es : List ZeroExtent}
    (hv : Valid (L.content s) (B.size s) es) (hsb : B.size s % B.blockSize = 0)
    {r : Except Err Bytes} {st : OpState σ}
    (hr : opRun B func detect cancel es buf s = (r, st)) :
    (L.Inv st.src ∧ F st.src ∧ L.content st.src = L.content s ∧ L.durable st.src = L.durable s ∧
      B.size st.src = B.size s) ∧
    (r = .ok (blockChecksum func buf.length (load (L.content s) 0 (B.size s))) ∨
     (r = .error .canceled ∧ ∃ k, cancel k = true) ∨
     ∃ e k, r = .error e ∧ External e ∧ k ≤ B.size s ∧ L.mayFail k) := by
  obtain ⟨t1, t2⟩ := tiles_flags hv.tiles hv.zero
  rw [Nat.zero_add] at t1
  unfold opRun at hr
  rw [show split es buf.length = blocksOf 0 (chunks buf.length (zeroFlags es)) from
    (splitLoop_spec hn es 0 _ hv.tiles).1] at hr
  have hs := opBlocks_spec hf (cancel := cancel) (detect := detect) (func := func) hn hnb (s0 := s)
    (zeroFlags es) (st := ⟨s, buf, Hash.init func buf.length, 0, 0⟩)
    ⟨hi, hF, rfl, rfl, rfl, rfl, rfl, rfl⟩ 0 (Nat.zero_mod _) (by rw [t1]; exact hsb)
    (by omega) t2
  generalize opBlocks B func detect cancel (blocksOf 0 (chunks buf.length (zeroFlags es)))
    ⟨s, buf, Hash.init func buf.length, 0, 0⟩ = x at hr hs
  obtain ⟨r1, st1⟩ := x
  obtain ⟨h1, hcase⟩ := hs r1 st1 rfl
  simp only [Prod.mk.injEq] at hr
  obtain ⟨rfl, rfl⟩ := hr
  refine ⟨⟨h1.inv, h1.full, h1.content, h1.durable, h1.size⟩, ?_⟩
  rcases hcase with ⟨rfl, hin, -⟩ | ⟨rfl, hk⟩ | ⟨e, k, rfl, he, hk, hm⟩
  · left
    simp only [Hash.digest, hin, Hash.init, List.nil_append, t1, blockChecksum]
  · exact .inr (.inl ⟨rfl, hk⟩)
  · exact .inr (.inr ⟨e, k, rfl, he, by omega, hm⟩)

/-! ## Plain files -/

theorem readBlock_spec {short : Nat → Nat} {fuel i length : Nat} {rest : Bytes}
    (hf : length ≤ fuel) (hr : length ≤ rest.length) :
    ∃ i', readBlock short fuel i length rest = .ok (rest.take length, rest.drop length, i') := by
  induction fuel generalizing i length rest with
  | zero =>
    have : length = 0 := by omega
    subst this
    exact ⟨i, by simp [readBlock]⟩
  | succ fuel ih =>
    unfold readBlock
    by_cases h0 : length = 0
    · subst h0
      exact ⟨i, by simp⟩
    · rw [if_neg h0]
      simp only
      obtain ⟨i', he⟩ := ih (i := i + 1) (length := length - min (min (short i + 1) length) rest.length)
        (rest := rest.drop (min (min (short i + 1) length) rest.length)) (by omega)
        (by rw [List.length_drop]; omega)
      rw [he]
      refine ⟨i', ?_⟩
      simp only [Except.ok.injEq, Prod.mk.injEq, and_true, List.drop_drop]
      constructor
      · rw [← List.take_add]
        congr 1
        omega
      · congr 1
        omega

theorem checksumLoop_spec {func : Bytes → Bytes} {short : Nat → Nat} {n : Nat} (hn : 0 < n)
    {detect : Bool} {fuel i : Nat} {rest : Bytes} {h : Hash} (hf : rest.length ≤ fuel)
    (hb : h.blockSize = n) (hz : h.zeroDigest = func (zeros n)) :
    ∃ h', checksumLoop func short n detect fuel i rest.length rest h = .ok h' ∧
      h'.input = h.input ++ (chunks n rest).flatMap func := by
  induction fuel generalizing i rest h with
  | zero =>
    have : rest = [] := List.length_eq_zero_iff.1 (by omega)
    subst this
    unfold checksumLoop
    rw [if_neg (by simp; omega), if_neg (by simp)]
    exact ⟨h, rfl, by simp [chunks_nil]⟩
  | succ fuel ih =>
    unfold checksumLoop
    by_cases hle : n ≤ rest.length
    · rw [if_pos hle]
      obtain ⟨i', he⟩ := readBlock_spec (short := short) (i := i) (Nat.le_refl n) hle
      simp only [he]
      have hd : rest.length - n = (rest.drop n).length := by simp
      rw [hd]
      have hch : chunks n rest = rest.take n :: chunks n (rest.drop n) := by
        rw [chunks, dif_pos ⟨hn, by rintro rfl; simp at hle; omega⟩]
      by_cases hdz : (detect && isZero (rest.take n)) = true
      · rw [if_pos hdz]
        obtain ⟨z1, z2, z3⟩ := Hash.zero_input h hb hz n
        obtain ⟨h', e1, e2⟩ := ih (i := i') (rest := rest.drop n) (h := h.zero func n)
          (by rw [List.length_drop]; omega) z2 z3
        refine ⟨h', e1, ?_⟩
        simp only [Bool.and_eq_true] at hdz
        have hzz : rest.take n = zeros n := by
          have := isZero_eq_zeros hdz.2
          rwa [List.length_take, Nat.min_eq_left hle] at this
        rw [e2, z1, hch, List.flatMap_cons, List.append_assoc, hzz]
      · rw [if_neg hdz]
        obtain ⟨h', e1, e2⟩ := ih (i := i') (rest := rest.drop n) (h := h.update func (rest.take n))
          (by rw [List.length_drop]; omega) hb hz
        refine ⟨h', e1, ?_⟩
        rw [e2, hch, List.flatMap_cons]
        simp [Hash.update]
    · rw [if_neg hle]
      by_cases h0 : rest.length ≠ 0
      · rw [if_pos h0]
        obtain ⟨i', he⟩ := readBlock_spec (short := short) (i := i) (Nat.le_refl rest.length)
          (Nat.le_refl rest.length)
        simp only [he]
        refine ⟨_, rfl, ?_⟩
        rw [chunks_short (by simpa using h0) (by omega)]
        simp [Hash.update]
      · rw [if_neg h0]
        have : rest = [] := List.length_eq_zero_iff.1 (by omega)
        subst this
        exact ⟨h, rfl, by simp [chunks_nil]⟩

end Imageio.Blkhash
