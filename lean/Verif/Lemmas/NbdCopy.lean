import Verif.Model.NbdCopy
namespace Imageio.NbdCopy

/-- The writer did not fail. -/
def Wr.live : Wr → Bool
  | .raised _ | .signal | .dead => false
  | _ => true

/-- The extents from offset `p` describe the image to its end. -/
def Good (src : Nat → Byte) (size : Nat) : Nat → List Ext → Prop
  | p, [] => p = size
  | p, some (l, z) :: rest => (z = true → ∀ i, p ≤ i → i < p + l → src i = 0) ∧ Good src size (p + l) rest
  | _, none :: _ => False

/-! ### The error -/

structure ErrInv (s : St) : Prop where
  some_iff : s.error ≠ none ↔ (s.wr = .signal ∨ s.wr = .dead)

theorem ErrInv.step {c : Cfg} {s s' : St} (h : ErrInv s) (hs : Step c s s') : ErrInv s' := by
  obtain ⟨h⟩ := h
  constructor
  cases hs <;> simp_all

/-! ### The reader -/

/-- The reader is at `pos`. -/
def Rd.Geo (src : Nat → Byte) (size pos bufSize : Nat) (stop : Prop) : Rd → Prop
  | .next rest => Good src size pos rest
  | .loop z todo rest =>
    (z = true → ∀ i, pos ≤ i → i < pos + todo → src i = 0) ∧ Good src size (pos + todo) rest
  | .got _ todo rest => 0 < todo ∧ Good src size (pos + todo) rest
  | .put r todo rest =>
    r.offset = pos ∧ 0 < r.length ∧ r.length ≤ todo ∧
    ((r.op = .zero ∧ ∀ i, pos ≤ i → i < pos + todo → src i = 0) ∨
     ((∃ b, r.op = .write b) ∧ r.length ≤ bufSize)) ∧ Good src size (pos + todo) rest
  | .flush => pos = size
  | .last => pos = size
  | .join => stop ∨ pos = size
  | .done e => e = none → stop ∨ pos = size

structure Geo (c : Cfg) (size : Nat) (s : St) : Prop where
  rd : s.rd.Geo c.src size s.pos c.bufSize (s.error ≠ none)
  mem : ∀ b, (s.mem b).length = c.bufSize

theorem Geo.step {c : Cfg} {size : Nat} (hb : 0 < c.bufSize) {s s' : St} (h : Geo c size s)
    (hs : Step c s s') : Geo c size s' := by
  obtain ⟨h, hm⟩ := h
  cases hs
  case ext l z rest hr => simp only [hr, Rd.Geo, Good] at h ⊢; exact ⟨h, hm⟩
  case extNone => exact ⟨by simp [Rd.Geo], hm⟩
  case extFail => exact ⟨by simp [Rd.Geo], hm⟩
  case extEnd hr => simp only [hr, Rd.Geo, Good] at h ⊢; exact ⟨h, hm⟩
  case loopEnd hr => simp only [hr, Rd.Geo] at h ⊢; exact ⟨by simpa [Rd.Geo] using h.2, hm⟩
  case zeroStop e hr h0 he => exact ⟨.inl (by simp [he]), hm⟩
  case zeroStep todo rest hr h0 he =>
    simp only [hr, Rd.Geo] at h
    refine ⟨⟨rfl, ?_, ?_, .inl ⟨rfl, h.1 trivial⟩, h.2⟩, hm⟩
    · simp only [maxZero]; omega
    · simp only [maxZero]; omega
  case getBuf hr h0 hbs =>
    simp only [hr, Rd.Geo] at h
    exact ⟨⟨by omega, h.2⟩, hm⟩
  case dataStop e hr he => exact ⟨.inl (by simp [he]), hm⟩
  case noBuf => exact ⟨by simp [Rd.Geo], hm⟩
  case read todo b rest hr he =>
    simp only [hr, Rd.Geo] at h
    refine ⟨⟨rfl, ?_, ?_, .inr ⟨⟨b, rfl⟩, ?_⟩, h.2⟩, ?_⟩
    · simp only [hm]; omega
    · simp only [hm]; omega
    · simp only [hm]; omega
    · intro x
      simp only [set]
      split
      · simp only [List.length_append, List.length_map, List.length_range, List.length_drop, hm]; omega
      · exact hm x
  case readFail b rest e d hr he hd =>
    refine ⟨by simp [Rd.Geo], ?_⟩
    intro x
    simp only [set]
    split
    · simp [hd, hm]
    · exact hm x
  case put r todo rest hr hq =>
    simp only [hr, Rd.Geo] at h
    obtain ⟨h1, h2, h3, h4, h5⟩ := h
    have : s.pos + r.length + (todo - r.length) = s.pos + todo := by omega
    refine ⟨⟨?_, by simpa only [this] using h5⟩, hm⟩
    intro hz
    rcases h4 with ⟨_, h4⟩ | ⟨⟨b, h4⟩, _⟩
    · intro i hi1 hi2
      exact h4 i (by simp only at hi1; omega) (by simp only at hi1 hi2; omega)
    · simp [h4] at hz
  case putFlush hr hq => simp only [hr, Rd.Geo] at h; exact ⟨h, hm⟩
  case putLast hr hq => simp only [hr, Rd.Geo] at h; exact ⟨.inr h, hm⟩
  case joined hr _ => simp only [hr, Rd.Geo] at h; exact ⟨fun _ => h, hm⟩
  case setError e hw =>
    refine ⟨?_, hm⟩
    cases hr : s.rd <;> simp only [hr, Rd.Geo] at h ⊢ <;> first | exact h | simp
  all_goals exact ⟨h, hm⟩

/-! ### The buffers -/

def Op.uses (b : Nat) : Op → Nat
  | .write b' => if b' = b then 1 else 0
  | _ => 0

def Op.bufs : Op → Nat
  | .write _ => 1
  | _ => 0

def Wr.uses (b : Nat) : Wr → Nat
  | .working r => r.op.uses b
  | .giveBack b' _ => if b' = b then 1 else 0
  | _ => 0

def Wr.bufs : Wr → Nat
  | .working r => r.op.bufs
  | .giveBack .. => 1
  | _ => 0

def Rd.uses (b : Nat) : Rd → Nat
  | .got (some b') .. => if b' = b then 1 else 0
  | .put r .. => r.op.uses b
  | _ => 0

def Rd.bufs : Rd → Nat
  | .got (some _) .. => 1
  | .put r .. => r.op.bufs
  | _ => 0

def reqsUse (b : Nat) : List (Option Req) → Nat
  | [] => 0
  | some r :: rs => r.op.uses b + reqsUse b rs
  | none :: rs => reqsUse b rs

def reqsBufs : List (Option Req) → Nat
  | [] => 0
  | some r :: rs => r.op.bufs + reqsBufs rs
  | none :: rs => reqsBufs rs

def bufsUse (b : Nat) : List (Option Nat) → Nat
  | [] => 0
  | some b' :: bs => (if b' = b then 1 else 0) + bufsUse b bs
  | none :: bs => bufsUse b bs

def bufsSome : List (Option Nat) → Nat
  | [] => 0
  | some _ :: bs => 1 + bufsSome bs
  | none :: bs => bufsSome bs

def bufsNone : List (Option Nat) → Nat
  | [] => 0
  | some _ :: bs => bufsNone bs
  | none :: bs => 1 + bufsNone bs

@[simp] theorem reqsUse_append (b : Nat) (x y : List (Option Req)) :
    reqsUse b (x ++ y) = reqsUse b x + reqsUse b y := by
  induction x with
  | nil => simp [reqsUse]
  | cons a x ih => cases a <;> simp [reqsUse, ih]; omega

@[simp] theorem reqsBufs_append (x y : List (Option Req)) :
    reqsBufs (x ++ y) = reqsBufs x + reqsBufs y := by
  induction x with
  | nil => simp [reqsBufs]
  | cons a x ih => cases a <;> simp [reqsBufs, ih]; omega

@[simp] theorem bufsUse_append (b : Nat) (x y : List (Option Nat)) :
    bufsUse b (x ++ y) = bufsUse b x + bufsUse b y := by
  induction x with
  | nil => simp [bufsUse]
  | cons a x ih => cases a <;> simp [bufsUse, ih]; omega

@[simp] theorem bufsSome_append (x y : List (Option Nat)) :
    bufsSome (x ++ y) = bufsSome x + bufsSome y := by
  induction x with
  | nil => simp [bufsSome]
  | cons a x ih => cases a <;> simp [bufsSome, ih]; omega

@[simp] theorem bufsNone_append (x y : List (Option Nat)) :
    bufsNone (x ++ y) = bufsNone x + bufsNone y := by
  induction x with
  | nil => simp [bufsNone]
  | cons a x ih => cases a <;> simp [bufsNone, ih]; omega

theorem bufs_length (x : List (Option Nat)) : x.length = bufsSome x + bufsNone x := by
  induction x with
  | nil => rfl
  | cons a x ih => cases a <;> simp [bufsSome, bufsNone, ih] <;> omega

/-- The number of places where a buffer is. -/
def uses (s : St) (b : Nat) : Nat := bufsUse b s.bufs + reqsUse b s.reqs + s.wr.uses b + s.rd.uses b

/-- The number of buffers that are somewhere. -/
def total (s : St) : Nat := bufsSome s.bufs + reqsBufs s.reqs + s.wr.bufs + s.rd.bufs

structure Own (c : Cfg) (s : St) : Prop where
  once : ∀ b, uses s b ≤ 1
  le : total s ≤ c.depth
  /-- no buffer is lost while nothing failed -/
  eq : s.wr.live = true → (∀ e, s.rd ≠ .done e) → s.rd ≠ .join → total s = c.depth
  none_le : bufsNone s.bufs ≤ 1
  none_dead : s.wr ≠ .dead → bufsNone s.bufs = 0 ∧ ∀ todo rest, s.rd ≠ .got none todo rest
  dead : s.wr = .dead → (∃ z t r, s.rd = .loop z t r) ∨ (∃ r, s.rd = .next r) ∨
    (∃ r t rest, s.rd = .put r t rest) ∨ s.rd = .flush ∨ s.rd = .last →
    bufsNone s.bufs = 1

theorem uses_init (n b : Nat) :
    bufsUse b ((List.range n).map some) = if b < n then 1 else 0 := by
  induction n with
  | zero => simp [bufsUse]
  | succ n ih =>
    rw [List.range_succ]
    simp only [List.map_append, bufsUse_append, ih, List.map_cons, List.map_nil, bufsUse]
    split <;> split <;> split <;> omega

theorem some_init (n : Nat) :
    bufsSome ((List.range n).map some) = n ∧ bufsNone ((List.range n).map some) = 0 := by
  induction n with
  | zero => simp [bufsSome, bufsNone]
  | succ n ih =>
    rw [List.range_succ]
    simp [bufsSome, bufsNone, ih]

theorem Own.init {c : Cfg} {exts : List Ext} {dst : Nat → Byte} : Own c (St.init c exts dst) := by
  constructor
  · intro b
    simp only [uses, St.init, uses_init, reqsUse, Wr.uses, Rd.uses]
    split <;> omega
  · simp [total, St.init, some_init, reqsBufs, Wr.bufs, Rd.bufs]
  · simp [total, St.init, some_init, reqsBufs, Wr.bufs, Rd.bufs]
  · simp [St.init, some_init]
  · simp [St.init, some_init]
  · simp [St.init]

theorem Own.step {c : Cfg} {s s' : St} (he : ErrInv s) (h : Own c s) (hs : Step c s s') : Own c s' := by
  obtain ⟨h1, h2, h3, h4, h5, h6⟩ := h
  have he := he.some_iff
  cases hs
  case' getBuf b bs hr h0 hb => cases b
  all_goals
    constructor
    · intro b
      have := h1 b
      grind [uses, Wr.uses, Rd.uses, reqsUse, bufsUse, Op.uses, reqsUse_append, bufsUse_append]
    · grind [total, Wr.bufs, Rd.bufs, reqsBufs, bufsSome, Op.bufs, reqsBufs_append, bufsSome_append]
    · grind [total, Wr.bufs, Rd.bufs, reqsBufs, bufsSome, Op.bufs, reqsBufs_append, bufsSome_append, Wr.live]
    · grind [bufsNone, bufsNone_append]
    · grind [bufsNone, bufsNone_append]
    · grind [bufsNone, bufsNone_append]

/-! ### The bytes -/

theorem good_le {src : Nat → Byte} {size p : Nat} {rest : List Ext} (h : Good src size p rest) : p ≤ size := by
  induction rest generalizing p with
  | nil => simp only [Good] at h; omega
  | cons a rest ih =>
    rcases a with _ | ⟨l, z⟩
    · exact absurd h (by simp [Good])
    · have := ih h.2; omega

/-- The requests that wait for the writer, or that it has started. -/
def pending (s : St) : List Req :=
  (match s.wr with | .working r => [r] | _ => []) ++ s.reqs.filterMap id

def applyAll (mem : Nat → Bytes) (rs : List Req) (dst : Nat → Byte) : Nat → Byte :=
  rs.foldl (fun d r => r.apply mem d) dst

/-- The first `pos` bytes of the source, and the old bytes after them. -/
def target (src dst : Nat → Byte) (pos : Nat) : Nat → Byte := fun i => if i < pos then src i else dst i

theorem bytes_set {mem : Nat → Bytes} {b : Nat} {d : Bytes} {r : Req} (h : r.op.uses b = 0) :
    r.bytes (set mem b d) = r.bytes mem := by
  simp only [Req.bytes]
  cases ho : r.op with
  | write b' =>
    simp only [ho, Op.uses] at h
    simp only [set]
    split
    · simp_all
    · rfl
  | _ => rfl

theorem apply_set {mem : Nat → Bytes} {b : Nat} {d : Bytes} {r : Req} (h : r.op.uses b = 0) (dst : Nat → Byte) :
    r.apply (set mem b d) dst = r.apply mem dst := by
  funext i
  simp only [Req.apply, bytes_set h]

theorem apply_flush {mem : Nat → Bytes} {r : Req} (h : r.op = .flush) (dst : Nat → Byte) :
    r.apply mem dst = dst := by
  funext i
  unfold Req.apply
  rw [if_neg (by simp only [Req.bytes, h, List.length_nil]; omega)]

theorem applyAll_set {mem : Nat → Bytes} {b : Nat} {d : Bytes} {rs : List (Option Req)}
    (h : reqsUse b rs = 0) (dst : Nat → Byte) :
    applyAll (set mem b d) (rs.filterMap id) dst = applyAll mem (rs.filterMap id) dst := by
  induction rs generalizing dst with
  | nil => rfl
  | cons a rs ih =>
    rcases a with _ | r
    · exact ih (by simpa [reqsUse] using h) dst
    · simp only [reqsUse] at h
      simp only [List.filterMap_cons, id, applyAll, List.foldl_cons]
      have := ih (by omega) (r.apply mem dst)
      simp only [applyAll] at this
      rw [apply_set (by omega), this]

theorem apply_target {mem : Nat → Bytes} {src dst : Nat → Byte} {r : Req} (hl : (r.bytes mem).length = r.length)
    (hd : ∀ i, i < r.length → (r.bytes mem).getD i 0 = src (r.offset + i)) :
    r.apply mem (target src dst r.offset) = target src dst (r.offset + r.length) := by
  funext i
  simp only [Req.apply, target, hl]
  by_cases h1 : r.offset ≤ i ∧ i < r.offset + r.length
  · rw [if_pos h1, if_pos (by omega), hd _ (by omega)]
    congr 1; omega
  · rw [if_neg h1]
    by_cases h2 : i < r.offset
    · rw [if_pos h2, if_pos (by omega)]
    · rw [if_neg h2, if_neg (by omega)]

/-- A request ready to be sent delivers the bytes of the source. -/
def Delivers (mem : Nat → Bytes) (src : Nat → Byte) (r : Req) : Prop :=
  (r.bytes mem).length = r.length ∧ ∀ i, i < r.length → (r.bytes mem).getD i 0 = src (r.offset + i)

structure Data (c : Cfg) (dst0 : Nat → Byte) (s : St) : Prop where
  all : s.wr.live = true → applyAll s.mem (pending s) s.dst = target c.src dst0 s.pos
  held : ∀ r todo rest, s.rd = .put r todo rest → Delivers s.mem c.src r

theorem bytes_congr {mem mem' : Nat → Bytes} {r : Req} (h : r.bytes mem = r.bytes mem') {src : Nat → Byte}
    (hd : Delivers mem src r) : Delivers mem' src r := by
  simpa only [Delivers, h] using hd

theorem applyAll_append (mem : Nat → Bytes) (x y : List Req) (dst : Nat → Byte) :
    applyAll mem (x ++ y) dst = applyAll mem y (applyAll mem x dst) := by
  simp [applyAll]

theorem Data.step {c : Cfg} {size : Nat} {dst0 : Nat → Byte} {s s' : St} (hg : Geo c size s)
    (ho : Own c s) (h : Data c dst0 s) (hs : Step c s s') : Data c dst0 s' := by
  obtain ⟨h1, h2⟩ := h
  cases hs
  case zeroStep todo rest hr h0 he =>
    refine ⟨h1, ?_⟩
    rintro r todo' rest' ⟨⟩
    obtain ⟨hg, -⟩ := hg
    simp only [hr, Rd.Geo] at hg
    refine ⟨by simp [Req.bytes, zeros], ?_⟩
    intro i hi
    simp only [maxZero] at hi
    simp only [Req.bytes, zeros]
    rw [hg.1 trivial (s.pos + i) (by omega) (by omega)]
    rw [List.getD_eq_getElem?_getD, List.getElem?_replicate]
    split <;> rfl
  case read todo b rest hr he =>
    have hu := ho.once b
    simp only [uses, hr, Rd.uses, if_true] at hu
    constructor
    · intro hl
      rw [← h1 hl]
      simp only [pending, applyAll_append]
      rw [applyAll_set (by omega)]
      cases hw : s.wr <;> simp only [hw, Wr.uses] at hu ⊢ <;> try rfl
      case working r =>
        simp only [applyAll, List.foldl_cons, List.foldl_nil]
        rw [apply_set (by omega)]
    · rintro r todo' rest' ⟨⟩
      have hm := hg.mem b
      constructor
      · simp [Req.bytes, set]
      · intro i hi
        simp only at hi
        simp only [Req.bytes, set, if_true]
        rw [List.getD_eq_getElem?_getD, List.getElem?_take, if_pos hi,
          List.getElem?_append_left (by simpa using hi)]
        simp only [List.getElem?_map, List.getElem?_range hi]
        rfl
  case readFail todo b rest e d hr he hd =>
    have hu := ho.once b
    simp only [uses, hr, Rd.uses, if_true] at hu
    refine ⟨?_, by simp⟩
    intro hl
    rw [← h1 hl]
    simp only [pending, applyAll_append]
    rw [applyAll_set (by omega)]
    cases hw : s.wr <;> simp only [hw, Wr.uses] at hu ⊢ <;> try rfl
    case working r =>
      simp only [applyAll, List.foldl_cons, List.foldl_nil]
      rw [apply_set (by omega)]
  case put r todo rest hr hq =>
    refine ⟨?_, by simp⟩
    intro hl
    have := h1 hl
    obtain ⟨hd1, hd2⟩ := h2 _ _ _ hr
    obtain ⟨hg, -⟩ := hg
    simp only [hr, Rd.Geo] at hg
    have h3 := apply_target (dst := dst0) hd1 hd2
    rw [hg.1, ← this] at h3
    simp only [pending, List.filterMap_append, applyAll_append, List.filterMap_cons, List.filterMap_nil, id] at h3 ⊢
    exact h3
  case putFlush hr hq =>
    refine ⟨?_, by simp⟩
    intro hl
    rw [← h1 hl]
    simp only [pending, List.filterMap_append, applyAll_append, List.filterMap_cons, List.filterMap_nil, id]
    exact apply_flush (mem := s.mem) (r := ⟨.flush, 0, 0⟩) rfl _
  case putLast hr hq =>
    refine ⟨?_, by simp⟩
    intro hl
    rw [← h1 hl]
    simp [pending]
  case get r rs hw hq =>
    refine ⟨?_, h2⟩
    intro _
    have := h1 (by simp [hw, Wr.live])
    simp only [pending, hw, hq] at this ⊢
    exact this
  case getNone rs hw hq =>
    refine ⟨?_, h2⟩
    intro _
    have := h1 (by simp [hw, Wr.live])
    simp only [pending, hw, hq] at this ⊢
    exact this
  case write r b hw hop =>
    refine ⟨?_, h2⟩
    intro _
    have := h1 (by simp [hw, Wr.live])
    simp only [pending, hw, applyAll_append] at this ⊢
    exact this
  case zero r hw hop =>
    refine ⟨?_, h2⟩
    intro _
    have := h1 (by simp [hw, Wr.live])
    simp only [pending, hw, applyAll_append] at this ⊢
    exact this
  case flush r hw hop =>
    refine ⟨?_, h2⟩
    intro _
    have := h1 (by simp [hw, Wr.live])
    simp only [pending, hw, applyAll_append] at this ⊢
    rw [← this]
    congr 1
    exact (apply_flush hop _).symm
  case giveBack b r hw hq =>
    refine ⟨?_, h2⟩
    intro _
    have := h1 (by simp [hw, Wr.live])
    simp only [pending, hw] at this ⊢
    exact this
  case report r hw =>
    refine ⟨?_, h2⟩
    intro _
    have := h1 (by simp [hw, Wr.live])
    simp only [pending, hw] at this ⊢
    exact this
  all_goals
    first
    | exact ⟨h1, h2⟩
    | exact ⟨h1, by simp⟩
    | exact ⟨by simp [Wr.live], h2⟩

/-! ### Ranges, and bytes outside of the image -/

structure Range (size : Nat) (dst0 : Nat → Byte) (s : St) : Prop where
  reqs : ∀ r, some r ∈ s.reqs → r.offset + r.length ≤ size
  wr : ∀ r, s.wr = .working r → r.offset + r.length ≤ size
  outside : ∀ i, size ≤ i → s.dst i = dst0 i

theorem bytes_le (mem : Nat → Bytes) (r : Req) : (r.bytes mem).length ≤ r.length := by
  simp only [Req.bytes]
  cases r.op with
  | write b => simp only [List.length_take]; omega
  | zero => simp [zeros]
  | flush => simp

theorem Range.step {c : Cfg} {size : Nat} {dst0 : Nat → Byte} {s s' : St} (hg : Geo c size s)
    (h : Range size dst0 s) (hs : Step c s s') : Range size dst0 s' := by
  obtain ⟨h1, h2, h3⟩ := h
  cases hs
  case put r todo rest hr hq =>
    refine ⟨?_, h2, h3⟩
    obtain ⟨hg, -⟩ := hg
    simp only [hr, Rd.Geo] at hg
    have := good_le hg.2.2.2.2
    intro x hx
    rcases List.mem_append.mp hx with hx | hx
    · exact h1 x hx
    · simp only [List.mem_singleton, Option.some.injEq] at hx
      subst hx
      omega
  case putFlush =>
    refine ⟨?_, h2, h3⟩
    intro x hx
    rcases List.mem_append.mp hx with hx | hx
    · exact h1 x hx
    · simp only [List.mem_singleton, Option.some.injEq] at hx
      subst hx
      simp
  case putLast =>
    refine ⟨?_, h2, h3⟩
    intro x hx
    rcases List.mem_append.mp hx with hx | hx
    · exact h1 x hx
    · simp at hx
  case get r rs hw hq =>
    refine ⟨fun x hx => h1 x (by rw [hq]; exact .tail _ hx), ?_, h3⟩
    rintro x ⟨⟩
    exact h1 _ (by rw [hq]; exact .head _)
  case getNone rs hw hq => exact ⟨fun x hx => h1 x (by rw [hq]; exact .tail _ hx), by simp, h3⟩
  case write r b hw hop =>
    refine ⟨h1, by simp, ?_⟩
    intro i hi
    have := h2 _ hw
    have := bytes_le s.mem r
    simp only [Req.apply]
    rw [if_neg (by omega), h3 i hi]
  case zero r hw hop =>
    refine ⟨h1, by simp, ?_⟩
    intro i hi
    have := h2 _ hw
    have := bytes_le s.mem r
    simp only [Req.apply]
    rw [if_neg (by omega), h3 i hi]
  case fail r dst e hw hd =>
    refine ⟨h1, by simp, ?_⟩
    intro i hi
    have := h2 _ hw
    simp only
    rw [hd i (by omega), h3 i hi]
  all_goals
    first
    | exact ⟨h1, h2, h3⟩
    | exact ⟨h1, by simp, h3⟩

/-! ### The end of the copy -/

/-- The requests end with a flush, or everything was flushed. -/
def Flushed (s : St) : Prop :=
  (∃ l r, pending s = l ++ [r] ∧ r.op = .flush) ∨ (pending s = [] ∧ s.flushed = true ∧
    ∀ b r, s.wr ≠ .giveBack b r)

structure Tail (s : St) : Prop where
  none_iff : s.rd ≠ .join → (∀ e, s.rd ≠ .done e) → none ∉ s.reqs ∧ s.wr ≠ .stopped
  join : s.rd = .join → s.error = none → s.wr ≠ .stopped → none ∈ s.reqs
  stopped : s.wr = .stopped → s.reqs = []
  only_last : ∀ l r, s.reqs = l ++ none :: r → r = []
  flush : s.wr.live = true → s.rd = .last ∨ s.rd = .join → Flushed s
  done : ∀ e, s.rd = .done e → e = none → s.wr = .stopped ∧ s.flushed = true ∧ s.error = none ∧ s.reqs = []

theorem tail_of_append {α : Type} {x : α} {xs l : List α} {f : α} (h : x :: xs = l ++ [f]) :
    (xs = [] ∧ x = f) ∨ ∃ l', xs = l' ++ [f] := by
  cases l with
  | nil => simp at h; exact .inl ⟨h.2, h.1⟩
  | cons a l => simp at h; exact .inr ⟨l, h.2⟩

/-- Only the last request is `None`. -/
def OnlyLast (l : List (Option Req)) : Prop := ∀ a b, l = a ++ none :: b → b = []

theorem onlyLast_of_not_mem {l : List (Option Req)} (h : none ∉ l) (x : Option Req) : OnlyLast (l ++ [x]) := by
  intro a b hab
  rcases List.append_eq_append_iff.mp hab with ⟨a', h1, h2⟩ | ⟨c', h1, h2⟩
  · cases a' with
    | nil => simp at h2; exact h2.2
    | cons y a' => simp at h2
  · cases c' with
    | nil => simp at h2; exact h2.2
    | cons y c' =>
      simp at h2
      exact absurd (by rw [h1, ← h2.1]; simp) h

theorem onlyLast_tail {l : List (Option Req)} {x : Option Req} (h : OnlyLast (x :: l)) : OnlyLast l :=
  fun a b hab => h (x :: a) b (by rw [hab]; rfl)

theorem Tail.step {c : Cfg} {s s' : St} (he : ErrInv s) (h : Tail s) (hs : Step c s s') : Tail s' := by
  obtain ⟨h1, h2, h3, h4, h5, h6⟩ := h
  have he := he.some_iff
  cases hs
  case put r todo rest hr hq =>
    have h1 := h1 (by simp [hr]) (by simp [hr])
    exact ⟨fun _ _ => ⟨by simp [h1], h1.2⟩, by simp, by simp [h1.2], onlyLast_of_not_mem h1.1 _, by simp, by simp⟩
  case putFlush hr hq =>
    have h1 := h1 (by simp [hr]) (by simp [hr])
    exact ⟨fun _ _ => ⟨by simp [h1], h1.2⟩, by simp, by simp [h1.2], onlyLast_of_not_mem h1.1 _,
      fun _ _ => .inl ⟨pending s, ⟨.flush, 0, 0⟩, by simp [pending], rfl⟩, by simp⟩
  case putLast hr hq =>
    have h1 := h1 (by simp [hr]) (by simp [hr])
    refine ⟨by simp, by simp, by simp [h1.2], onlyLast_of_not_mem h1.1 _, ?_, by simp⟩
    intro hl _
    have := h5 hl (.inl hr)
    simpa [Flushed, pending] using this
  case joined hr hw =>
    refine ⟨by simp, by simp, h3, h4, by simp, ?_⟩
    rintro e ⟨⟩ h0
    have hst : s.wr = .stopped := by
      rcases hw with hw | hw
      · simp [hw, h0] at he
      · exact hw
    have := h5 (by simp [hst, Wr.live]) (.inr hr)
    refine ⟨hst, ?_, h0, h3 hst⟩
    simp only [Flushed, pending, hst, h3 hst] at this
    simpa using this
  case get r rs hw hq =>
    refine ⟨?_, ?_, by simp, onlyLast_tail (by rw [← hq]; exact h4), ?_, ?_⟩
    · intro a b
      have := h1 a b
      rw [hq] at this
      simp at this ⊢
      exact this.1
    · intro a b _
      have := h2 a b (by simp [hw])
      rw [hq] at this
      simpa using this
    · intro _ hr
      have := h5 (by simp [hw, Wr.live]) hr
      simpa [Flushed, pending, hw, hq] using this
    · intro e h0 h00; simp [(h6 e h0 h00).1] at hw
  case getNone rs hw hq =>
    have hrs : rs = [] := h4 [] rs (by rw [hq]; rfl)
    refine ⟨?_, by simp, by simp [hrs], onlyLast_tail (by rw [← hq]; exact h4), ?_, ?_⟩
    · intro a b
      have := h1 a b
      simp [hq] at this
    · intro _ hr
      have := h5 (by simp [hw, Wr.live]) hr
      simpa [Flushed, pending, hw, hq] using this
    · intro e h0 h00; simp [(h6 e h0 h00).1] at hw
  case write r b hw hop =>
    refine ⟨?_, fun a b _ => h2 a b (by simp [hw]), by simp, h4, ?_, ?_⟩
    · intro a b; exact ⟨(h1 a b).1, by simp⟩
    · intro _ hr
      rcases h5 (by simp [hw, Wr.live]) hr with ⟨l, f, hp, hf⟩ | ⟨hp, _⟩
      · simp only [pending, hw, List.singleton_append] at hp
        rcases tail_of_append hp with ⟨_, rfl⟩ | ⟨l', hl⟩
        · simp [hf] at hop
        · exact .inl ⟨l', f, by simp [pending, hl], hf⟩
      · simp [pending, hw] at hp
    · intro e h0 h00; simp [(h6 e h0 h00).1] at hw
  case zero r hw hop =>
    refine ⟨?_, fun a b _ => h2 a b (by simp [hw]), by simp, h4, ?_, ?_⟩
    · intro a b; exact ⟨(h1 a b).1, by simp⟩
    · intro _ hr
      rcases h5 (by simp [hw, Wr.live]) hr with ⟨l, f, hp, hf⟩ | ⟨hp, _⟩
      · simp only [pending, hw, List.singleton_append] at hp
        rcases tail_of_append hp with ⟨_, rfl⟩ | ⟨l', hl⟩
        · simp [hf] at hop
        · exact .inl ⟨l', f, by simp [pending, hl], hf⟩
      · simp [pending, hw] at hp
    · intro e h0 h00; simp [(h6 e h0 h00).1] at hw
  case flush r hw hop =>
    refine ⟨?_, fun a b _ => h2 a b (by simp [hw]), by simp, h4, ?_, ?_⟩
    · intro a b; exact ⟨(h1 a b).1, by simp⟩
    · intro _ hr
      rcases h5 (by simp [hw, Wr.live]) hr with ⟨l, f, hp, hf⟩ | ⟨hp, _⟩
      · simp only [pending, hw, List.singleton_append] at hp
        rcases tail_of_append hp with ⟨hn, rfl⟩ | ⟨l', hl⟩
        · exact .inr ⟨by simp [pending, hn], rfl, by simp⟩
        · exact .inl ⟨l', f, by simp [pending, hl], hf⟩
      · simp [pending, hw] at hp
    · intro e h0 h00; simp [(h6 e h0 h00).1] at hw
  case giveBack b r hw hq =>
    refine ⟨?_, fun a b _ => h2 a b (by simp [hw]), by simp, h4, ?_, ?_⟩
    · intro a b; exact ⟨(h1 a b).1, by simp⟩
    · intro _ hr
      rcases h5 (by simp [hw, Wr.live]) hr with ⟨l, f, hp, hf⟩ | ⟨_, _, hp⟩
      · exact .inl ⟨l, f, by simpa [pending, hw] using hp, hf⟩
      · exact absurd hw (hp b r)
    · intro e h0 h00; simp [(h6 e h0 h00).1] at hw
  case report r hw =>
    refine ⟨?_, fun a b _ => h2 a b (by simp [hw]), by simp, h4, ?_, ?_⟩
    · intro a b; exact ⟨(h1 a b).1, by simp⟩
    · intro _ hr
      rcases h5 (by simp [hw, Wr.live]) hr with ⟨l, f, hp, hf⟩ | ⟨hp, hf, _⟩
      · exact .inl ⟨l, f, by simpa [pending, hw] using hp, hf⟩
      · exact .inr ⟨by simpa [pending, hw] using hp, hf, by simp⟩
    · intro e h0 h00; simp [(h6 e h0 h00).1] at hw
  case zeroStop e hr h0 hx =>
    exact ⟨by simp, by simp [hx], h3, h4,
      fun hl => by rcases he.mp (by simp [hx]) with h | h <;> simp [h, Wr.live] at hl, by simp⟩
  case dataStop e hr hx =>
    exact ⟨by simp, by simp [hx], h3, h4,
      fun hl => by rcases he.mp (by simp [hx]) with h | h <;> simp [h, Wr.live] at hl, by simp⟩
  case fail r dst e hw hd =>
    exact ⟨fun a b => ⟨(h1 a b).1, by simp⟩, fun a b _ => h2 a b (by simp [hw]), by simp, h4, by simp [Wr.live],
      fun e h0 h00 => by simp [(h6 e h0 h00).1] at hw⟩
  case reportFail r e hw =>
    exact ⟨fun a b => ⟨(h1 a b).1, by simp⟩, fun a b _ => h2 a b (by simp [hw]), by simp, h4, by simp [Wr.live],
      fun e h0 h00 => by simp [(h6 e h0 h00).1] at hw⟩
  case setError e hw =>
    exact ⟨fun a b => ⟨(h1 a b).1, by simp⟩, by simp, by simp, h4, by simp [Wr.live],
      fun e h0 h00 => by simp [(h6 e h0 h00).1] at hw⟩
  case signal hw hq =>
    exact ⟨fun a b => ⟨(h1 a b).1, by simp⟩, fun a b _ => h2 a b (by simp [hw]), by simp, h4, by simp [Wr.live],
      fun e h0 h00 => by simp [(h6 e h0 h00).1] at hw⟩
  all_goals
    have h1 := h1 (by simp [*]) (by simp [*])
    exact ⟨fun _ _ => h1, by simp, h3, h4, by simp, by simp⟩

/-! ### All of them -/

structure Inv (c : Cfg) (size : Nat) (dst0 : Nat → Byte) (s : St) : Prop where
  err : ErrInv s
  geo : Geo c size s
  own : Own c s
  data : Data c dst0 s
  range : Range size dst0 s
  tail : Tail s

theorem inv {c : Cfg} {size : Nat} {exts : List Ext} {dst0 : Nat → Byte} (hb : 0 < c.bufSize)
    (hv : Good c.src size 0 exts) {s : St} (h : Reachable c exts dst0 s) : Inv c size dst0 s := by
  induction h with
  | init =>
    refine ⟨⟨by simp [St.init]⟩, ⟨hv, by simp [St.init, zeros]⟩, .init, ⟨?_, by simp [St.init]⟩,
      ⟨by simp [St.init], by simp [St.init], fun _ _ => rfl⟩, ⟨by simp [St.init], by simp [St.init], by simp [St.init],
        by simp [St.init], by simp [St.init], by simp [St.init]⟩⟩
    intro _
    funext i
    simp [St.init, pending, applyAll, target]
  | step h hs ih =>
    exact ⟨ih.err.step hs, ih.geo.step hb hs, ih.own.step ih.err hs, ih.data.step ih.geo ih.own hs,
      ih.range.step ih.geo hs, ih.tail.step ih.err hs⟩

end Imageio.NbdCopy
