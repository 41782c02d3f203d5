import Verif.Model.Nbd
import Verif.Spec.Nbd
import Verif.Model.Backend
/-!
Lemmas about the model of the NBD client.
-/
namespace Imageio.Nbd
open Imageio.Spec Imageio.Extents

/-! ## Numbers -/

theorem be_length (k v : Nat) : (be k v).length = k := by simp [be]

theorem be_succ (k v : Nat) : be (k + 1) v = be k (v / 256) ++ [UInt8.ofNat (v % 256)] := by
  unfold be
  rw [List.range_succ, List.map_append]
  congr 1
  · apply List.map_congr_left
    intro i hi
    have hi : i < k := List.mem_range.1 hi
    have e : k + 1 - 1 - i = (k - 1 - i) + 1 := by omega
    rw [e, Nat.pow_succ, Nat.mul_comm, ← Nat.div_div_eq_div_mul]
  · simp

theorem packNat_eq (k v : Nat) : packNat k v = be k v := by
  induction k generalizing v with
  | zero => rfl
  | succ k ih => rw [packNat, ih, be_succ]

theorem unpackNat_snoc (l : Bytes) (b : Byte) : unpackNat (l ++ [b]) = unpackNat l * 256 + b.toNat := by
  simp [unpackNat]

theorem unpackNat_be (k v : Nat) : unpackNat (be k v) = v % 256 ^ k := by
  induction k generalizing v with
  | zero => simp [be, unpackNat, Nat.mod_one]
  | succ k ih =>
    rw [be_succ, unpackNat_snoc, ih]
    have h1 : (UInt8.ofNat (v % 256)).toNat = v % 256 := by
      rw [UInt8.toNat_ofNat', Nat.mod_mod]
    rw [h1, Nat.pow_succ, Nat.mul_comm (256 ^ k) 256, Nat.mod_mul]
    omega

theorem field_at {p q : Bytes} {o k v : Nat} (h : p.length = o) :
    field (p ++ (be k v ++ q)) o k = v % 256 ^ k := by
  unfold field
  rw [← h, List.drop_left, List.take_left' (be_length k v), unpackNat_be]

/-! ## Sequencing -/

theorem bind_ok {α β : Type} {m : M α} {f : α → M β} {s s' : Conn} {a : α} (h : m s = (.ok a, s')) :
    (m >>= f) s = f a s' := by
  simp only [Bind.bind, M.bind, h]

theorem bind_error {α β : Type} {m : M α} {f : α → M β} {s s' : Conn} {e : Err} (h : m s = (.error e, s')) :
    (m >>= f) s = (.error e, s') := by
  simp only [Bind.bind, M.bind, h]

theorem pure_run {α : Type} (a : α) (s : Conn) : (pure a : M α) s = (.ok a, s) := rfl

/-- The connection after `t` was left in the stream. -/
structure After (s : Conn) (t : Bytes) (s' : Conn) : Prop where
  rest : s'.rest = t
  sent : s'.sent = s.sent
  counter : s'.counter = s.counter

theorem After.trans {s s' s'' : Conn} {t t' : Bytes} (h : After s t s') (h' : After s' t' s'') :
    After s t' s'' := ⟨h'.rest, h'.sent.trans h.sent, h'.counter.trans h.counter⟩

/-! ## Receiving -/

theorem recvLoop_spec {fuel n : Nat} {s : Conn} (hf : n ≤ fuel) (hn : n ≤ s.rest.length) :
    ∃ s', recvLoop fuel n s = (.ok (s.rest.take n), s') ∧ After s (s.rest.drop n) s' := by
  induction fuel generalizing n s with
  | zero =>
    obtain rfl : n = 0 := by omega
    exact ⟨s, by simp [recvLoop], rfl, rfl, rfl⟩
  | succ fuel ih =>
    unfold recvLoop
    by_cases h0 : n = 0
    · subst h0
      exact ⟨s, by simp, rfl, rfl, rfl⟩
    · simp only [h0, if_false]
      have hk : ∃ k f, 0 < k ∧ k ≤ n ∧ sockRecv s n = (s.rest.take k, { s with rest := s.rest.drop k, frags := f }) := by
        unfold sockRecv
        cases s.frags with
        | nil => exact ⟨n, _, by omega, Nat.le_refl _, rfl⟩
        | cons f fs => exact ⟨min n (f + 1), _, by omega, by omega, rfl⟩
      obtain ⟨k, f, k1, k2, e⟩ := hk
      rw [e]
      have hlen : (s.rest.take k).length = k := by rw [List.length_take]; omega
      simp only [hlen]
      rw [if_neg (by omega)]
      obtain ⟨s', h1, h2⟩ := ih (n := n - k) (s := { s with rest := s.rest.drop k, frags := f }) (by omega)
        (by simp only [List.length_drop]; omega)
      refine ⟨s', ?_, ?_⟩
      · rw [h1]
        simp only
        congr 2
        rw [show n = k + (n - k) by omega, List.take_add]
        congr 2
        omega
      · refine ⟨?_, h2.sent, h2.counter⟩
        rw [h2.rest]
        simp only [List.drop_drop]
        congr 1
        omega

theorem recvLoop_short {fuel n : Nat} {s : Conn} (hf : n ≤ fuel) (hn : s.rest.length < n) :
    ∃ s', recvLoop fuel n s = (.error protocolError, s') ∧ After s [] s' := by
  induction fuel generalizing n s with
  | zero => omega
  | succ fuel ih =>
    unfold recvLoop
    rw [if_neg (by omega)]
    have hk : ∃ k f, 0 < k ∧ k ≤ n ∧ sockRecv s n = (s.rest.take k, { s with rest := s.rest.drop k, frags := f }) := by
      unfold sockRecv
      cases s.frags with
      | nil => exact ⟨n, _, by omega, Nat.le_refl _, rfl⟩
      | cons f fs => exact ⟨min n (f + 1), _, by omega, by omega, rfl⟩
    obtain ⟨k, f, k1, k2, e⟩ := hk
    rw [e]
    simp only
    by_cases h0 : (s.rest.take k).length = 0
    · rw [if_pos h0]
      rw [List.length_take] at h0
      have : s.rest = [] := List.length_eq_zero_iff.1 (by omega)
      exact ⟨_, rfl, by simp [this], rfl, rfl⟩
    · rw [if_neg h0]
      rw [List.length_take] at h0
      obtain ⟨s', h1, h2⟩ := ih (n := n - (s.rest.take k).length)
        (s := { s with rest := s.rest.drop k, frags := f })
        (by rw [List.length_take]; omega)
        (by simp only [List.length_drop, List.length_take]; omega)
      refine ⟨s', ?_, h2.rest, h2.sent, h2.counter⟩
      rw [h1]

/-- Receive exactly the bytes `d` at the front of the stream. -/
theorem recv_append {d t : Bytes} {s : Conn} {n : Nat} (hs : s.rest = d ++ t) (hn : d.length = n) :
    ∃ s', recv n s = (.ok d, s') ∧ After s t s' := by
  obtain ⟨s', h1, h2⟩ := recvLoop_spec (fuel := n) (n := n) (s := s) (Nat.le_refl _)
    (by rw [hs, List.length_append]; omega)
  rw [hs, ← hn, List.take_left] at h1
  rw [hs, ← hn, List.drop_left] at h2
  exact ⟨s', by rw [← hn]; exact h1, h2⟩


theorem recv_short {n : Nat} {s : Conn} (hn : s.rest.length < n) :
    ∃ s', recv n s = (.error protocolError, s') ∧ After s [] s' :=
  recvLoop_short (Nat.le_refl _) hn

theorem field_head {q : Bytes} {k v : Nat} (hv : v < 256 ^ k) : field (be k v ++ q) 0 k = v := by
  have := field_at (p := []) (q := q) (o := 0) (k := k) (v := v) rfl
  rw [List.nil_append] at this
  rw [this, Nat.mod_eq_of_lt hv]

theorem field_mid {p q : Bytes} {o k v : Nat} (h : p.length = o) (hv : v < 256 ^ k) :
    field (p ++ (be k v ++ q)) o k = v := by rw [field_at h, Nat.mod_eq_of_lt hv]

theorem field_one {k v : Nat} (hv : v < 256 ^ k) : field (be k v) 0 k = v := by
  have := field_head (q := []) hv
  rwa [List.append_nil] at this

/-! ## Chunks -/

/-- The payload of an error chunk. -/
theorem recvErrorChunk_spec {code : Nat} {msg t : Bytes} {length : Int} {s : Conn} (hcode : code < 2 ^ 32)
    (hmsg : msg.length < 2 ^ 16) (hs : s.rest = be 4 code ++ be 2 msg.length ++ msg ++ t)
    (hl : length = msg.length + 6) :
    ∃ s', recvErrorChunk length s = (.ok code, s') ∧ After s t s' := by
  unfold recvErrorChunk
  obtain ⟨s1, e1, a1⟩ := recv_append (d := be 4 code ++ be 2 msg.length) (t := msg ++ t) (s := s) (n := 6)
    (by rw [hs]; simp only [List.append_assoc]) (by simp [be_length])
  have f1 : field (be 4 code ++ be 2 msg.length) 0 4 = code := field_head hcode
  have f2 : field (be 4 code ++ be 2 msg.length) 4 2 = msg.length := by
    have := field_mid (p := be 4 code) (q := []) (o := 4) (k := 2) (v := msg.length) (be_length ..) hmsg
    rwa [List.append_nil] at this
  rw [bind_ok e1]
  simp only [f1, f2]
  rw [if_neg (by omega)]
  obtain ⟨s2, e2, a2⟩ := recv_append (d := msg) (t := t) (s := s1) (n := msg.length) a1.rest rfl
  rw [bind_ok e2]
  exact ⟨s2, rfl, a1.trans a2⟩

/-- The effect of a chunk on a command. -/
def apply (ss : Session) (cmd : Cmd) : NbdChunk → Cmd
  | .data o d => { cmd with buf := cmd.buf.map fun b => putSlice b (o - cmd.offset.toNat) d }
  | .hole o n => { cmd with buf := cmd.buf.map fun b => putSlice b (o - cmd.offset.toNat) (zeros n) }
  | .errorOffset code _ o => { cmd with errors := cmd.errors ++ [(o, code)] }
  | .status ctx es =>
    match ss.contexts.lookup ctx with
    | none => cmd
    | some name =>
      match Extents.recvExtents ss.minBlock (contextKind ss name) es with
      | .error _ => cmd
      | .ok xs => { cmd with reply := cmd.reply.map fun d => setItem d name xs }
  | _ => cmd

/-- The parts of a command that decide which chunks are accepted. -/
structure Shape (cmd : Cmd) (handle offset : Nat) (len : Option Nat) (st : Bool) : Prop where
  handle : cmd.handle = handle
  offset : cmd.offset = offset
  buf : cmd.buf.map List.length = len
  reply : cmd.reply.isSome = st

/-- The chunks that do not fail the command at once. -/
def Accepts (ss : Session) (offset : Nat) (len : Option Nat) (st : Bool) : NbdChunk → Prop
  | .none => True
  | .errorOffset .. => True
  | .data o d => ∃ n, len = some n ∧ offset ≤ o ∧ o + d.length ≤ offset + n
  | .hole o k => ∃ n, len = some n ∧ 0 < k ∧ offset ≤ o ∧ o + k ≤ offset + n
  | .status ctx es => st = true ∧ es ≠ [] ∧ es.length ≤ maxExtents ∧
      ∃ name xs, ss.contexts.lookup ctx = some name ∧
        Extents.recvExtents ss.minBlock (contextKind ss name) es = .ok xs
  | .error .. => False

/-- Extents on the wire. -/
def extsWire (es : List (Nat × Nat)) : Bytes := es.flatMap fun e => be 4 e.1 ++ be 4 e.2

theorem extsWire_length (es : List (Nat × Nat)) : (extsWire es).length = 8 * es.length := by
  induction es with
  | nil => rfl
  | cons e es ih =>
    simp only [extsWire, List.flatMap_cons, List.length_append, be_length, List.length_cons] at ih ⊢
    omega

theorem extsWire_append (a b : List (Nat × Nat)) : extsWire (a ++ b) = extsWire a ++ extsWire b := by
  simp [extsWire]

theorem unpackExtents_spec {ss : Session} {k : Context} {es : List (Nat × Nat)}
    (h : ∀ e ∈ es, e.1 < 2 ^ 32 ∧ e.2 < 2 ^ 32) :
    unpackExtents ss k es.length (extsWire es) = Extents.recvExtents ss.minBlock k es := by
  induction es with
  | nil => rfl
  | cons e es ih =>
    obtain ⟨h1, h2⟩ := h e (by simp)
    have ew : extsWire (e :: es) = be 4 e.1 ++ (be 4 e.2 ++ extsWire es) := by
      simp [extsWire, List.append_assoc]
    have f1 : field (extsWire (e :: es)) 0 4 = e.1 := by rw [ew]; exact field_head h1
    have f2 : field (extsWire (e :: es)) 4 4 = e.2 := by rw [ew]; exact field_mid (be_length ..) h2
    have f3 : (extsWire (e :: es)).drop 8 = extsWire es := by
      rw [ew, ← List.append_assoc, List.drop_left' (by simp [be_length])]
    obtain ⟨l, f⟩ := e
    rw [List.length_cons, unpackExtents, f1, f2, f3, ih fun x hx => h x (by simp [hx]), Extents.recvExtents]
    rfl

theorem recvExtents_split {mb : Nat} {k : Context} (a b : List (Nat × Nat)) {xs : List Ext}
    (h : Extents.recvExtents mb k (a ++ b) = .ok xs) :
    ∃ ys zs, Extents.recvExtents mb k a = .ok ys ∧ Extents.recvExtents mb k b = .ok zs ∧ xs = ys ++ zs := by
  induction a generalizing xs with
  | nil => exact ⟨[], xs, rfl, h, rfl⟩
  | cons e a ih =>
    obtain ⟨l, f⟩ := e
    rw [List.cons_append, Extents.recvExtents] at h
    rw [Extents.recvExtents]
    split at h
    · simp at h
    next e he =>
      by_cases hmb : mb = 0
      · simp [hmb] at h
      rw [if_neg hmb] at h ⊢
      split at h
      · simp at h
      next hm =>
        rw [if_neg hm]
        split at h
        · simp at h
        next es hes =>
          obtain ⟨ys, zs, h1, h2, rfl⟩ := ih hes
          simp only [Except.ok.injEq] at h
          subst h
          rw [h1]
          exact ⟨_, zs, rfl, h2, rfl⟩

theorem recvExtents_wire {ss : Session} {k : Context} {fuel : Nat} {es : List (Nat × Nat)} {xs : List Ext}
    {t : Bytes} {s : Conn} (hfuel : es.length ≤ fuel) (h : ∀ e ∈ es, e.1 < 2 ^ 32 ∧ e.2 < 2 ^ 32)
    (hx : Extents.recvExtents ss.minBlock k es = .ok xs) (hs : s.rest = extsWire es ++ t) :
    ∃ s', recvExtents ss k fuel (8 * es.length) s = (.ok xs, s') ∧ After s t s' := by
  induction fuel generalizing es xs s with
  | zero =>
    obtain rfl : es = [] := List.length_eq_zero_iff.1 (by omega)
    simp only [Extents.recvExtents, Except.ok.injEq] at hx
    subst hx
    exact ⟨s, by simp [recvExtents, pure_run], by simpa [extsWire] using hs, rfl, rfl⟩
  | succ fuel ih =>
    unfold recvExtents
    by_cases h0 : es = []
    · subst h0
      simp only [Extents.recvExtents, Except.ok.injEq] at hx
      subst hx
      exact ⟨s, by simp [pure_run], by simpa [extsWire] using hs, rfl, rfl⟩
    have hpos : 0 < es.length := List.length_pos_iff.2 h0
    rw [if_neg (by omega)]
    have hsplit := List.take_append_drop 1024 es
    have hl : (es.take 1024).length = min 1024 es.length := List.length_take ..
    rw [← hsplit] at hx
    obtain ⟨ys, zs, x1, x2, rfl⟩ := recvExtents_split _ _ hx
    obtain ⟨s1, e1, a1⟩ := recv_append (d := extsWire (es.take 1024)) (t := extsWire (es.drop 1024) ++ t) (s := s)
      (n := min (8 * es.length) (8 * 1024))
      (by rw [hs, ← List.append_assoc, ← extsWire_append, hsplit])
      (by rw [extsWire_length, hl]; omega)
    simp only
    rw [bind_ok e1, extsWire_length, show 8 * (es.take 1024).length / 8 = (es.take 1024).length by omega,
      unpackExtents_spec fun e he => h e (List.mem_of_mem_take he), x1]
    simp only
    obtain ⟨s2, e2, a2⟩ := ih (es := es.drop 1024) (xs := zs) (s := s1) (by rw [List.length_drop]; omega)
      (fun e he => h e (List.mem_of_mem_drop he)) x2 a1.rest
    rw [show 8 * es.length - 8 * (es.take 1024).length = 8 * (es.drop 1024).length by
      rw [hl, List.length_drop]; omega, bind_ok e2]
    exact ⟨s2, rfl, a1.trans a2⟩

theorem handleStatus_spec {ss : Session} {cmd : Cmd} {ctx : Nat} {es : List (Nat × Nat)} {offset : Nat}
    {len : Option Nat} {t : Bytes} {s : Conn} (hfit : (NbdChunk.status ctx es).Fits)
    (hacc : Accepts ss offset len cmd.reply.isSome (.status ctx es))
    (hs : s.rest = (NbdChunk.status ctx es).payload ++ t) :
    ∃ s', handleBlockStatusChunk ss (NbdChunk.status ctx es).payload.length cmd s =
      (.ok (apply ss cmd (.status ctx es)), s') ∧ After s t s' := by
  obtain ⟨h1, h2, h3, name, xs, h4, h5⟩ := hacc
  have e : (NbdChunk.status ctx es).payload = be 4 ctx ++ extsWire es := rfl
  have hl : (NbdChunk.status ctx es).payload.length = 4 + 8 * es.length := by
    rw [e, List.length_append, be_length, extsWire_length]
  have hpos : 0 < es.length := List.length_pos_iff.2 h2
  unfold handleBlockStatusChunk
  rw [hl, if_neg (by omega), if_neg (by omega)]
  obtain ⟨s1, e1, a1⟩ := recv_append (d := be 4 ctx) (t := extsWire es ++ t) (s := s) (n := 4)
    (by rw [hs, e, List.append_assoc]) (be_length ..)
  rw [bind_ok e1, field_one (k := 4) hfit.2.1, h4]
  simp only
  obtain ⟨s2, e2, a2⟩ := recvExtents_wire (ss := ss) (k := contextKind ss name) (fuel := 8 * es.length) (es := es)
    (xs := xs) (t := t) (s := s1) (by omega) hfit.2.2 h5 a1.rest
  rw [show 4 + 8 * es.length - 4 = 8 * es.length by omega, bind_ok e2]
  obtain ⟨d, hd⟩ := Option.isSome_iff_exists.1 h1
  refine ⟨s2, ?_, a1.trans a2⟩
  simp only [hd, apply, h4, h5, Option.map_some]
  rfl

theorem handleData_spec (ss : Session) {cmd : Cmd} {offset o : Nat} {buf d t : Bytes} {s : Conn}
    (hoff : cmd.offset = offset) (hbuf : cmd.buf = some buf) (ho : o < 2 ^ 64)
    (hi : offset ≤ o ∧ o + d.length ≤ offset + buf.length) (hs : s.rest = be 8 o ++ d ++ t) :
    ∃ s', handleDataChunk (8 + d.length) cmd s = (.ok (apply ss cmd (.data o d)), s') ∧ After s t s' := by
  unfold handleDataChunk
  obtain ⟨s1, e1, a1⟩ := recv_append (d := be 8 o) (t := d ++ t) (s := s) (n := 8)
    (by rw [hs]; simp only [List.append_assoc]) (be_length ..)
  rw [bind_ok e1]
  have f1 : field (be 8 o) 0 8 = o := field_one ho
  simp only [f1, hoff, hbuf]
  have b1 : pyBound buf.length ((o : Int) - offset) = o - offset := by
    unfold pyBound; split <;> omega
  have b2 : pyBound buf.length ((o : Int) - offset + (((8 + d.length : Nat) : Int) - 8)) = o - offset + d.length := by
    unfold pyBound; split <;> omega
  rw [b1, b2, show o - offset + d.length - (o - offset) = d.length by omega]
  obtain ⟨s2, e2, a2⟩ := recv_append (d := d) (t := t) (s := s1) (n := d.length) a1.rest rfl
  rw [bind_ok e2]
  refine ⟨s2, ?_, a1.trans a2⟩
  rw [pure_run]
  simp only [apply, hbuf, hoff, Int.toNat_natCast, Option.map_some]

theorem handleHole_spec (ss : Session) {cmd : Cmd} {offset o n : Nat} {buf t : Bytes} {s : Conn}
    (hoff : cmd.offset = offset) (hbuf : cmd.buf = some buf) (ho : o < 2 ^ 64) (hn : n < 2 ^ 32)
    (hi : 0 < n ∧ offset ≤ o ∧ o + n ≤ offset + buf.length) (hs : s.rest = be 8 o ++ be 4 n ++ t) :
    ∃ s', handleHoleChunk 12 cmd s = (.ok (apply ss cmd (.hole o n)), s') ∧ After s t s' := by
  unfold handleHoleChunk
  rw [if_neg (by decide)]
  obtain ⟨s1, e1, a1⟩ := recv_append (d := be 8 o ++ be 4 n) (t := t) (s := s) (n := 12) hs
    (by simp [be_length])
  rw [bind_ok e1]
  have f1 : field (be 8 o ++ be 4 n) 0 8 = o := field_head ho
  have f2 : field (be 8 o ++ be 4 n) 8 4 = n := by
    have := field_mid (p := be 8 o) (q := []) (o := 8) (k := 4) (v := n) (be_length ..) hn
    rwa [List.append_nil] at this
  simp only [f1, f2, hoff, hbuf]
  have b1 : pyBound buf.length ((o : Int) - offset) = o - offset := by
    unfold pyBound; split <;> omega
  have b2 : pyBound buf.length ((o : Int) - offset + n) = o - offset + n := by
    unfold pyBound; split <;> omega
  rw [b1, b2, if_neg (by omega), if_neg (by omega)]
  refine ⟨s1, ?_, a1⟩
  rw [pure_run]
  simp only [apply, hbuf, hoff, Int.toNat_natCast, Option.map_some]

theorem handleErrorOffset_spec (ss : Session) {cmd : Cmd} {code o : Nat} {msg t : Bytes} {s : Conn} (hcode : code < 2 ^ 32)
    (hmsg : msg.length < 2 ^ 16) (ho : o < 2 ^ 64)
    (hs : s.rest = be 4 code ++ be 2 msg.length ++ msg ++ be 8 o ++ t) :
    ∃ s', handleErrorOffsetChunk (14 + msg.length) cmd s = (.ok (apply ss cmd (.errorOffset code msg o)), s') ∧
      After s t s' := by
  unfold handleErrorOffsetChunk
  obtain ⟨s1, e1, a1⟩ := recvErrorChunk_spec (length := ((14 + msg.length : Nat) : Int) - 8) (s := s)
    (t := be 8 o ++ t) hcode hmsg (by rw [hs]; simp only [List.append_assoc]) (by omega)
  rw [bind_ok e1]
  obtain ⟨s2, e2, a2⟩ := recv_append (d := be 8 o) (t := t) (s := s1) (n := 8) a1.rest (be_length ..)
  rw [bind_ok e2, field_one (k := 8) ho]
  exact ⟨s2, rfl, a1.trans a2⟩

/-- The header of a chunk. -/
theorem header_fields {flags type handle length : Nat} (hf : flags < 2 ^ 16) (ht : type < 2 ^ 16)
    (hh : handle < 2 ^ 64) (hl : length < 2 ^ 32) :
    let h := be 2 flags ++ be 2 type ++ be 8 handle ++ be 4 length
    field h 0 2 = flags ∧ field h 2 2 = type ∧ field h 4 8 = handle ∧ field h 12 4 = length := by
  refine ⟨?_, ?_, ?_, ?_⟩
  · simp only [List.append_assoc]
    exact field_head hf
  · simp only [List.append_assoc]
    exact field_mid (be_length ..) ht
  · have e : be 2 flags ++ be 2 type ++ be 8 handle ++ be 4 length =
      (be 2 flags ++ be 2 type) ++ (be 8 handle ++ be 4 length) := by simp only [List.append_assoc]
    rw [e]
    exact field_mid (by simp [be_length]) hh
  · have e : be 2 flags ++ be 2 type ++ be 8 handle ++ be 4 length =
      (be 2 flags ++ be 2 type ++ be 8 handle) ++ (be 4 length ++ []) := by simp only [List.append_assoc, List.append_nil]
    rw [e]
    exact field_mid (by simp [be_length]) hl

theorem type_lt (c : NbdChunk) : c.type < 2 ^ 16 := by cases c <;> simp [NbdChunk.type]

/-- A chunk without its magic. -/
def body (handle flags : Nat) (c : NbdChunk) : Bytes :=
  be 2 flags ++ be 2 c.type ++ be 8 handle ++ be 4 c.payload.length ++ c.payload

theorem chunk_header {ss : Session} {cmd : Cmd} {flags handle : Nat} {c : NbdChunk} {t : Bytes} {s : Conn}
    (hf : flags < 2 ^ 16) (hh : handle < 2 ^ 64) (hc : c.Fits) (hs : s.rest = body handle flags c ++ t) :
    ∃ s1, After s (c.payload ++ t) s1 ∧
      recvReplyChunk ss cmd s =
      (if (handle : Int) ≠ cmd.handle then raise unexpectedHandle
        else if c.type = 32769 then do
          handleErrorChunk c.payload.length flags
          raise protocolError
        else do
          let cmd ←
            if c.type = 32770 then handleErrorOffsetChunk c.payload.length cmd
            else if c.type = 0 then handleNoneChunk flags c.payload.length cmd
            else if c.type = 1 then handleDataChunk c.payload.length cmd
            else if c.type = 2 then handleHoleChunk c.payload.length cmd
            else if c.type = 5 then handleBlockStatusChunk ss c.payload.length cmd
            else raise protocolError
          pure (cmd, decide (flags % 2 = 1)) : M (Cmd × Bool)) s1 := by
  unfold recvReplyChunk
  obtain ⟨s1, e1, a1⟩ := recv_append
    (d := be 2 flags ++ be 2 c.type ++ be 8 handle ++ be 4 c.payload.length) (t := c.payload ++ t) (s := s)
    (n := 16) (by rw [hs, body]; simp only [List.append_assoc]) (by simp [be_length])
  obtain ⟨f1, f2, f3, f4⟩ := header_fields hf (type_lt c) hh hc.1
  refine ⟨s1, a1, ?_⟩
  rw [bind_ok e1]
  simp only [f1, f2, f3, f4]

/-- Chunks that do not end the command. -/
theorem chunk_spec {ss : Session} {cmd : Cmd} {flags handle offset : Nat} {len : Option Nat} {st : Bool}
    {t : Bytes} {c : NbdChunk}
    {s : Conn} (hf : flags < 2 ^ 16) (hh : handle < 2 ^ 64) (hc : c.Fits) (hsh : Shape cmd handle offset len st)
    (hin : Accepts ss offset len st c) (hnone : c = .none → flags % 2 = 1)
    (hs : s.rest = body handle flags c ++ t) :
    ∃ s', recvReplyChunk ss cmd s = (.ok (apply ss cmd c, decide (flags % 2 = 1)), s') ∧ After s t s' := by
  obtain ⟨s1, a1, e1⟩ := chunk_header (ss := ss) (cmd := cmd) hf hh hc hs
  rw [e1, if_neg (by rw [hsh.handle]; simp)]
  cases c with
  | none =>
    simp only [NbdChunk.type, NbdChunk.payload]
    refine ⟨s1, ?_, a1⟩
    simp only [handleNoneChunk, hnone rfl]
    rfl
  | data o d =>
    obtain ⟨n, hn, hin⟩ := hin
    obtain ⟨buf, hbuf, rfl⟩ := Option.map_eq_some_iff.1 (hsh.buf.trans hn)
    simp only [NbdChunk.type]
    have e : NbdChunk.payload (.data o d) = be 8 o ++ d := rfl
    have hl : (NbdChunk.payload (.data o d)).length = 8 + d.length := by simp [e, be_length]
    obtain ⟨s2, e2, a2⟩ := handleData_spec ss (s := s1) hsh.offset hbuf hc.2 hin (t := t) (by rw [a1.rest, e])
    refine ⟨s2, ?_, a1.trans a2⟩
    rw [hl]
    exact (bind_ok e2).trans rfl
  | hole o n =>
    obtain ⟨m, hm, hin⟩ := hin
    obtain ⟨buf, hbuf, rfl⟩ := Option.map_eq_some_iff.1 (hsh.buf.trans hm)
    simp only [NbdChunk.type]
    have e : NbdChunk.payload (.hole o n) = be 8 o ++ be 4 n := rfl
    have hl : (NbdChunk.payload (.hole o n)).length = 12 := by simp [e, be_length]
    obtain ⟨s2, e2, a2⟩ := handleHole_spec ss (s := s1) hsh.offset hbuf hc.2.1 hc.2.2 hin (t := t) (by rw [a1.rest, e])
    refine ⟨s2, ?_, a1.trans a2⟩
    rw [hl]
    exact (bind_ok e2).trans rfl
  | status ctx es =>
    simp only [NbdChunk.type]
    obtain ⟨s2, e2, a2⟩ := handleStatus_spec (ss := ss) (cmd := cmd) (s := s1) (offset := offset) (len := len) hc
      (by rw [hsh.reply]; exact hin) (t := t) a1.rest
    refine ⟨s2, ?_, a1.trans a2⟩
    exact (bind_ok e2).trans rfl
  | error code msg => exact absurd hin id
  | errorOffset code msg o =>
    simp only [NbdChunk.type]
    have e : NbdChunk.payload (.errorOffset code msg o) = be 4 code ++ be 2 msg.length ++ msg ++ be 8 o := rfl
    have hl : (NbdChunk.payload (.errorOffset code msg o)).length = 14 + msg.length := by
      simp [e, be_length]; omega
    obtain ⟨s2, e2, a2⟩ := handleErrorOffset_spec ss (cmd := cmd) (s := s1) hc.2.1 hc.2.2.1 hc.2.2.2 (t := t)
      (by rw [a1.rest, e])
    refine ⟨s2, ?_, a1.trans a2⟩
    rw [hl]
    exact (bind_ok e2).trans rfl

/-! ## The loop -/

/-- Receive the magic. -/
theorem loop_magic {ss : Session} {cmd : Cmd} {fuel m : Nat} {t : Bytes} {s : Conn} (hm : m < 2 ^ 32)
    (hs : s.rest = be 4 m ++ t) :
    ∃ s1, After s t s1 ∧ recvReplyLoop ss (fuel + 1) cmd s =
      (if m = simpleReplyMagic then
        if cmd.onlyStructured then raise protocolError
        else recvSimpleReply cmd
      else if m = structuredReplyMagic then
        if !ss.structured then raise protocolError
        else do
          let (cmd, done) ← recvReplyChunk ss { cmd with onlyStructured := true }
          if done then
            if cmd.errors ≠ [] then raise requestError else pure cmd
          else recvReplyLoop ss fuel cmd
      else raise protocolError : M Cmd) s1 := by
  obtain ⟨s1, e1, a1⟩ := recv_append (d := be 4 m) (t := t) (s := s) (n := 4) hs (be_length ..)
  refine ⟨s1, a1, ?_⟩
  rw [recvReplyLoop, bind_ok e1]
  simp only [field_one (k := 4) hm]

theorem wire_body (handle flags : Nat) (c : NbdChunk) :
    c.wire handle flags = be 4 structuredReplyMagic ++ body handle flags c := by
  simp only [NbdChunk.wire, body, structuredReplyMagic, List.append_assoc]

/-- One round of the loop with a structured chunk. -/
theorem loop_chunk {ss : Session} {cmd : Cmd} {fuel flags handle : Nat} {c : NbdChunk} {t : Bytes} {s : Conn}
    (hst : ss.structured = true) (hs : s.rest = c.wire handle flags ++ t) :
    ∃ s1, After s (body handle flags c ++ t) s1 ∧ recvReplyLoop ss (fuel + 1) cmd s =
      (do
          let (cmd, done) ← recvReplyChunk ss { cmd with onlyStructured := true }
          if done then
            if cmd.errors ≠ [] then raise requestError else pure cmd
          else recvReplyLoop ss fuel cmd : M Cmd) s1 := by
  obtain ⟨s1, a1, e1⟩ := loop_magic (ss := ss) (cmd := cmd) (fuel := fuel) (m := structuredReplyMagic)
    (t := body handle flags c ++ t) (s := s) (by decide) (by rw [hs, wire_body, List.append_assoc])
  refine ⟨s1, a1, ?_⟩
  rw [e1, if_neg (by decide), if_pos rfl, if_neg (by simp [hst])]

/-- What is left of a command after a structured chunk. -/
def next (ss : Session) (cmd : Cmd) (c : Nat × NbdChunk) : Cmd := apply ss { cmd with onlyStructured := true } c.2

theorem putSlice_length {buf d : Bytes} {lo : Nat} (h : lo + d.length ≤ buf.length) :
    (putSlice buf lo d).length = buf.length := by
  simp only [putSlice, List.length_append, List.length_take, List.length_drop]
  omega

theorem next_shape {ss : Session} {cmd : Cmd} {c : Nat × NbdChunk} {handle offset : Nat} {len : Option Nat}
    {st : Bool} (hsh : Shape cmd handle offset len st) (hin : Accepts ss offset len st c.2) :
    Shape (next ss cmd c) handle offset len st := by
  obtain ⟨flags, c⟩ := c
  cases c with
  | data o d =>
    obtain ⟨n, hn, h1, h2⟩ := hin
    obtain ⟨buf, hbuf, rfl⟩ := Option.map_eq_some_iff.1 (hsh.buf.trans hn)
    refine ⟨hsh.handle, hsh.offset, ?_, hsh.reply⟩
    simp only [next, apply, hbuf, hsh.offset, Int.toNat_natCast, Option.map_some]
    rw [putSlice_length (by omega), hn]
  | hole o k =>
    obtain ⟨n, hn, h0, h1, h2⟩ := hin
    obtain ⟨buf, hbuf, rfl⟩ := Option.map_eq_some_iff.1 (hsh.buf.trans hn)
    refine ⟨hsh.handle, hsh.offset, ?_, hsh.reply⟩
    simp only [next, apply, hbuf, hsh.offset, Int.toNat_natCast, Option.map_some]
    rw [putSlice_length (by simp [zeros]; omega), hn]
  | status ctx es =>
    obtain ⟨h1, h2, h3, name, xs, h4, h5⟩ := hin
    refine ⟨?_, ?_, ?_, ?_⟩ <;> simp only [next, apply, h4, h5]
    · exact hsh.handle
    · exact hsh.offset
    · exact hsh.buf
    · rw [Option.isSome_map]; exact hsh.reply
  | _ => exact ⟨hsh.handle, hsh.offset, hsh.buf, hsh.reply⟩

theorem shape_structured {cmd : Cmd} {handle offset : Nat} {len : Option Nat} {st : Bool}
    (h : Shape cmd handle offset len st) : Shape { cmd with onlyStructured := true } handle offset len st :=
  ⟨h.handle, h.offset, h.buf, h.reply⟩

theorem fold_shape {ss : Session} (l : NbdReply) {cmd : Cmd} {handle offset : Nat} {len : Option Nat}
    {st : Bool} (hsh : Shape cmd handle offset len st) (hin : ∀ c ∈ l, Accepts ss offset len st c.2) :
    Shape (l.foldl (next ss) cmd) handle offset len st := by
  induction l generalizing cmd with
  | nil => exact hsh
  | cons c l ih => exact ih (next_shape hsh (hin c (by simp))) fun x hx => hin x (by simp [hx])

/-- Chunks before the last one. -/
def Continues (ss : Session) (offset : Nat) (len : Option Nat) (st : Bool) (c : Nat × NbdChunk) : Prop :=
  c.1 < 2 ^ 16 ∧ c.1 % 2 = 0 ∧ c.2 ≠ .none ∧ c.2.Fits ∧ Accepts ss offset len st c.2

theorem loop_prefix {ss : Session} {fuel handle offset : Nat} {len : Option Nat} {st : Bool}
    (hst : ss.structured = true)
    (hh : handle < 2 ^ 64) (r : NbdReply) {cmd : Cmd} {t : Bytes} {s : Conn}
    (hsh : Shape cmd handle offset len st)
    (hr : ∀ c ∈ r, Continues ss offset len st c) (hs : s.rest = r.wire handle ++ t) :
    ∃ s1, After s t s1 ∧
      recvReplyLoop ss (fuel + r.length) cmd s = recvReplyLoop ss fuel (r.foldl (next ss) cmd) s1 := by
  induction r generalizing cmd s with
  | nil => exact ⟨s, ⟨by simpa [NbdReply.wire] using hs, rfl, rfl⟩, rfl⟩
  | cons c r ih =>
    obtain ⟨h1, h2, h3, h4, h5⟩ := hr c (by simp)
    obtain ⟨s1, a1, e1⟩ := loop_chunk (ss := ss) (cmd := cmd) (fuel := fuel + r.length) (flags := c.1)
      (handle := handle) (c := c.2) (t := NbdReply.wire handle r ++ t) (s := s) hst
      (by rw [hs]; simp [NbdReply.wire])
    obtain ⟨s2, e2, a2⟩ := chunk_spec (ss := ss) (cmd := { cmd with onlyStructured := true }) (s := s1) h1 hh h4
      (shape_structured hsh) h5 (fun h => absurd h h3) a1.rest
    obtain ⟨s3, a3, e3⟩ := ih (cmd := next ss cmd c) (s := s2) (next_shape hsh h5)
      (fun x hx => hr x (by simp [hx])) a2.rest
    refine ⟨s3, (a1.trans a2).trans a3, ?_⟩
    rw [List.length_cons, ← Nat.add_assoc, e1, bind_ok e2]
    simp only [h2, show ¬ ((0 : Nat) = 1) by decide, decide_false, Bool.false_eq_true, if_false]
    exact e3

/-- The last chunk. -/
theorem loop_last {ss : Session} {fuel flags handle offset : Nat} {len : Option Nat} {st : Bool}
    (hst : ss.structured = true)
    (hh : handle < 2 ^ 64) {c : NbdChunk} {cmd : Cmd} {t : Bytes} {s : Conn}
    (hsh : Shape cmd handle offset len st)
    (hf : flags < 2 ^ 16) (hd : flags % 2 = 1) (hc : c.Fits) (hin : Accepts ss offset len st c)
    (hs : s.rest = c.wire handle flags ++ t) :
    ∃ s1, After s t s1 ∧ recvReplyLoop ss (fuel + 1) cmd s =
      (if (next ss cmd (flags, c)).errors ≠ [] then .error requestError else .ok (next ss cmd (flags, c)), s1) := by
  obtain ⟨s1, a1, e1⟩ := loop_chunk (ss := ss) (cmd := cmd) (fuel := fuel) hst hs
  obtain ⟨s2, e2, a2⟩ := chunk_spec (ss := ss) (cmd := { cmd with onlyStructured := true }) (s := s1) hf hh hc
      (shape_structured hsh) hin (fun _ => hd) a1.rest
  refine ⟨s2, a1.trans a2, ?_⟩
  rw [e1, bind_ok e2]
  simp only [hd, decide_true, if_true]
  show (if (next ss cmd (flags, c)).errors ≠ [] then raise requestError else pure (next ss cmd (flags, c)) : M Cmd) s2 = _
  split <;> rfl

/-- An error chunk. -/
theorem loop_error {ss : Session} {fuel flags handle code : Nat} (hst : ss.structured = true)
    (hh : handle < 2 ^ 64) {msg : Bytes} {cmd : Cmd} {t : Bytes} {s : Conn}
    (hhandle : cmd.handle = handle) (hf : flags < 2 ^ 16) (hc : (NbdChunk.error code msg).Fits)
    (hs : s.rest = (NbdChunk.error code msg).wire handle flags ++ t) :
    ∃ s1, After s t s1 ∧ recvReplyLoop ss (fuel + 1) cmd s =
      (.error (if flags % 2 = 1 then replyError code else protocolError), s1) := by
  obtain ⟨s1, a1, e1⟩ := loop_chunk (ss := ss) (cmd := cmd) (fuel := fuel) hst hs
  obtain ⟨s2, a2, e2⟩ := chunk_header (ss := ss) (cmd := { cmd with onlyStructured := true }) hf hh hc a1.rest
  have e : NbdChunk.payload (.error code msg) = be 4 code ++ be 2 msg.length ++ msg := rfl
  have hl : (NbdChunk.payload (.error code msg)).length = 6 + msg.length := by simp [e, be_length]; omega
  obtain ⟨s3, e3, a3⟩ := recvErrorChunk_spec (code := code) (msg := msg) (t := t) (s := s2)
    (length := ((NbdChunk.payload (.error code msg)).length : Int)) hc.2.1 hc.2.2
    (by rw [a2.rest, e]) (by rw [hl]; omega)
  refine ⟨s3, (a1.trans a2).trans a3, ?_⟩
  rw [e1]
  rw [if_neg (by simp [hhandle]), if_pos (by rfl)] at e2
  have e4 : handleErrorChunk (NbdChunk.payload (.error code msg)).length flags s2 =
      (.error (if flags % 2 = 1 then replyError code else protocolError), s3) := by
    unfold handleErrorChunk
    rw [bind_ok e3]
    split <;> rfl
  rw [bind_error e4] at e2
  rw [bind_error e2]

/-! ## The buffer of a read -/

theorem putSlice_get {buf d : Bytes} {lo : Nat} (h : lo + d.length ≤ buf.length) (i : Nat) :
    (putSlice buf lo d)[i]? = if lo ≤ i ∧ i < lo + d.length then d[i - lo]? else buf[i]? := by
  unfold putSlice
  rw [List.append_assoc, List.getElem?_append]
  have hlen : (buf.take lo).length = lo := by rw [List.length_take]; omega
  rw [hlen]
  by_cases h1 : i < lo
  · rw [if_pos h1, if_neg (by omega), List.getElem?_take, if_pos h1]
  · rw [if_neg h1, List.getElem?_append]
    by_cases h2 : i - lo < d.length
    · rw [if_pos h2, if_pos (by omega)]
    · rw [if_neg h2, if_neg (by omega), List.getElem?_drop]
      congr 1
      omega

/-- The bytes of the buffer are either the old bytes or the bytes of the disk. -/
def Filled (disk : Nat → Byte) (offset : Nat) (seen : Nat → Prop) (buf : Bytes) : Prop :=
  ∀ i, i < buf.length → seen (offset + i) → buf[i]? = some (disk (offset + i))

theorem next_filled (ss : Session) {disk : Nat → Byte} {cmd : Cmd} {c : Nat × NbdChunk} {offset : Nat} {buf : Bytes}
    {seen : Nat → Prop} (hoff : cmd.offset = offset) (hbuf : cmd.buf = some buf)
    (ht : c.2.Truthful disk offset buf.length) (hfill : Filled disk offset seen buf) :
    ∃ buf', (next ss cmd c).buf = some buf' ∧ buf'.length = buf.length ∧
      Filled disk offset (fun k => seen k ∨ c.2.Covers k) buf' := by
  obtain ⟨flags, c⟩ := c
  cases c with
  | data o d =>
    simp only [NbdChunk.Truthful] at ht
    obtain ⟨t1, t2, t3⟩ := ht
    have hle : o - offset + d.length ≤ buf.length := by omega
    refine ⟨putSlice buf (o - offset) d, by simp [next, apply, hbuf, hoff], putSlice_length hle, ?_⟩
    intro i hi hs
    rw [putSlice_length hle] at hi
    rw [putSlice_get hle]
    simp only [NbdChunk.Covers] at hs
    split
    next h =>
      rw [List.getElem?_eq_getElem (by omega), t3 (i - (o - offset)) (by omega)]
      congr 2
      omega
    next h =>
      rcases hs with hs | hs
      · exact hfill i hi hs
      · omega
  | hole o n =>
    simp only [NbdChunk.Truthful] at ht
    obtain ⟨t0, t1, t2, t3⟩ := ht
    have hz : (zeros n).length = n := by simp [zeros]
    have hle : o - offset + (zeros n).length ≤ buf.length := by omega
    refine ⟨putSlice buf (o - offset) (zeros n), by simp [next, apply, hbuf, hoff], putSlice_length hle, ?_⟩
    intro i hi hs
    rw [putSlice_length hle] at hi
    rw [putSlice_get hle, hz]
    simp only [NbdChunk.Covers] at hs
    split
    next h =>
      have e : disk (offset + i) = 0 := by
        have := t3 (offset + i - o) (by omega)
        rwa [show o + (offset + i - o) = offset + i by omega] at this
      rw [e, zeros, List.getElem?_replicate, if_pos (by omega)]
    next h =>
      rcases hs with hs | hs
      · exact hfill i hi hs
      · omega
  | none =>
    refine ⟨buf, by simp [next, apply, hbuf], rfl, ?_⟩
    intro i hi hs
    exact hfill i hi (hs.elim id fun h => absurd h id)
  | status _ _ => exact absurd ht id
  | error _ _ => exact absurd ht id
  | errorOffset _ _ _ => exact absurd ht id

theorem accepts_of_truthful {ss : Session} {disk : Nat → Byte} {offset length : Nat} {st : Bool} {c : NbdChunk}
    (h : c.Truthful disk offset length) : Accepts ss offset (some length) st c := by
  cases c with
  | none => trivial
  | data o d => exact ⟨_, rfl, h.1, h.2.1⟩
  | hole o n => exact ⟨_, rfl, h.1, h.2.1, h.2.2.1⟩
  | _ => exact absurd h id

theorem fold_filled (ss : Session) {disk : Nat → Byte} {offset : Nat} (r : NbdReply) {cmd : Cmd} {buf : Bytes}
    {seen : Nat → Prop} (hoff : cmd.offset = offset) (hbuf : cmd.buf = some buf) (herr : cmd.errors = [])
    (ht : ∀ c ∈ r, c.2.Truthful disk offset buf.length) (hfill : Filled disk offset seen buf) :
    (r.foldl (next ss) cmd).handle = cmd.handle ∧ (r.foldl (next ss) cmd).offset = cmd.offset ∧
    (r.foldl (next ss) cmd).errors = [] ∧ (r.foldl (next ss) cmd).reply = cmd.reply ∧
    ∃ buf', (r.foldl (next ss) cmd).buf = some buf' ∧ buf'.length = buf.length ∧
      Filled disk offset (fun k => seen k ∨ ∃ c ∈ r, c.2.Covers k) buf' := by
  induction r generalizing cmd buf seen with
  | nil => exact ⟨rfl, rfl, herr, rfl, buf, hbuf, rfl, fun i hi hs => hfill i hi (by simpa using hs)⟩
  | cons c r ih =>
    have tc := ht c (by simp)
    have n1 : (next ss cmd c).handle = cmd.handle ∧ (next ss cmd c).offset = cmd.offset := by
      obtain ⟨flags, c⟩ := c
      cases c <;> first | exact ⟨rfl, rfl⟩ | exact absurd tc id
    obtain ⟨n1, n2⟩ := n1
    obtain ⟨buf', b1, b2, b3⟩ := next_filled ss hoff hbuf tc hfill
    have ne : (next ss cmd c).errors = [] := by
      obtain ⟨flags, c⟩ := c
      cases c <;> first | exact herr | exact absurd tc id
    have nr : (next ss cmd c).reply = cmd.reply := by
      obtain ⟨flags, c⟩ := c
      cases c <;> first | rfl | exact absurd tc id
    obtain ⟨i1, i2, i3, i4, buf'', i5, i6, i7⟩ := ih (cmd := next ss cmd c) (buf := buf') (n2.trans hoff) b1 ne
      (fun x hx => by rw [b2]; exact ht x (by simp [hx])) b3
    refine ⟨i1.trans n1, i2.trans n2, i3, i4.trans nr, buf'', i5, i6.trans b2, ?_⟩
    intro i hi hs
    apply i7 i hi
    rcases hs with hs | ⟨x, hx, hs⟩
    · exact .inl (.inl hs)
    · rcases List.mem_cons.1 hx with rfl | hx
      · exact .inl (.inr hs)
      · exact .inr ⟨x, hx, hs⟩

/-- A framed reply is a list of chunks without the done flag and one chunk with it. -/
theorem framed_split {r : NbdReply} (h : r.Framed) :
    ∃ pre flags c, r = pre ++ [(flags, c)] ∧ flags < 2 ^ 16 ∧ flags % 2 = 1 ∧
      ∀ x ∈ pre, x.1 < 2 ^ 16 ∧ x.1 % 2 = 0 ∧ x.2 ≠ .none := by
  induction h with
  | last c hf hd => exact ⟨[], _, c, rfl, hf, hd, by simp⟩
  | more c hf hd hc _ ih =>
    obtain ⟨pre, flags, c', rfl, h1, h2, h3⟩ := ih
    refine ⟨_ :: pre, flags, c', rfl, h1, h2, ?_⟩
    intro x hx
    rcases List.mem_cons.1 hx with rfl | hx
    · exact ⟨hf, hd, hc⟩
    · exact h3 x hx

theorem wire_append (handle : Nat) (a b : NbdReply) :
    (a ++ b : NbdReply).wire handle = NbdReply.wire handle a ++ NbdReply.wire handle b := by
  simp [NbdReply.wire]

theorem chunk_wire_length (handle flags : Nat) (c : NbdChunk) : 20 ≤ (c.wire handle flags).length := by
  simp only [NbdChunk.wire, List.length_append, be_length]
  omega

theorem wire_length (handle : Nat) (r : NbdReply) : r.length ≤ (r.wire handle).length := by
  induction r with
  | nil => simp
  | cons c r ih =>
    have := chunk_wire_length handle c.1 c.2
    simp only [NbdReply.wire, List.flatMap_cons, List.length_append, List.length_cons] at ih ⊢
    omega

/-- Framed reply with content and partial errors: everything is received. -/
theorem recvReply_framed {ss : Session} {handle offset : Nat} {len : Option Nat} {st : Bool}
    (hst : ss.structured = true)
    (hh : handle < 2 ^ 64) {r : NbdReply} {cmd : Cmd} {t : Bytes} {s : Conn} (hr : r.Framed)
    (hsh : Shape cmd handle offset len st)
    (hfits : ∀ c ∈ r, c.2.Fits) (hin : ∀ c ∈ r, Accepts ss offset len st c.2)
    (hs : s.rest = r.wire handle ++ t) :
    ∃ s1, After s t s1 ∧ recvReply ss cmd s =
      (if (r.foldl (next ss) cmd).errors ≠ [] then .error requestError else .ok (r.foldl (next ss) cmd), s1) := by
  obtain ⟨pre, flags, c, rfl, h1, h2, h3⟩ := framed_split hr
  unfold recvReply
  have hlen := wire_length handle (pre ++ [(flags, c)])
  have hfuel : ∃ fuel, s.rest.length + 1 = (fuel + 1) + pre.length := by
    refine ⟨s.rest.length - pre.length, ?_⟩
    rw [hs]
    simp only [List.length_append, List.length_cons, List.length_nil] at hlen ⊢
    omega
  obtain ⟨fuel, hfuel⟩ := hfuel
  rw [hfuel]
  obtain ⟨s1, a1, e1⟩ := loop_prefix (ss := ss) (fuel := fuel + 1) hst hh pre (cmd := cmd)
    (t := NbdReply.wire handle [(flags, c)] ++ t) (s := s) hsh
    (fun x hx => by
      obtain ⟨x1, x2, x3⟩ := h3 x hx
      exact ⟨x1, x2, x3, hfits x (by simp [hx]), hin x (by simp [hx])⟩)
    (by rw [hs, wire_append, List.append_assoc])
  obtain ⟨s2, a2, e2⟩ := loop_last (ss := ss) (fuel := fuel) (flags := flags) hst hh (c := c)
    (cmd := pre.foldl (next ss) cmd) (t := t) (s := s1)
    (fold_shape pre hsh fun x hx => hin x (by simp [hx])) h1 h2
    (hfits (flags, c) (by simp)) (hin (flags, c) (by simp))
    (by rw [a1.rest]; simp [NbdReply.wire])
  refine ⟨s2, a1.trans a2, ?_⟩
  rw [e1, e2, List.foldl_append]
  rfl

/-- A reply with an error chunk: the command fails, and the stream is after the error chunk. -/
theorem recvReply_error {ss : Session} {handle offset flags code : Nat} {len : Option Nat} {st : Bool}
    (hst : ss.structured = true)
    (hh : handle < 2 ^ 64) {pre : NbdReply} {cmd : Cmd} {msg t : Bytes} {s : Conn}
    (hsh : Shape cmd handle offset len st) (hpre : ∀ c ∈ pre, Continues ss offset len st c)
    (hf : flags < 2 ^ 16) (hfits : (NbdChunk.error code msg).Fits)
    (hs : s.rest = NbdReply.wire handle (pre ++ [(flags, .error code msg)]) ++ t) :
    ∃ s1, After s t s1 ∧ recvReply ss cmd s =
      (.error (if flags % 2 = 1 then replyError code else protocolError), s1) := by
  unfold recvReply
  have hlen := wire_length handle (pre ++ [(flags, .error code msg)])
  have hfuel : ∃ fuel, s.rest.length + 1 = (fuel + 1) + pre.length := by
    refine ⟨s.rest.length - pre.length, ?_⟩
    rw [hs]
    simp only [List.length_append, List.length_cons, List.length_nil] at hlen ⊢
    omega
  obtain ⟨fuel, hfuel⟩ := hfuel
  rw [hfuel]
  obtain ⟨s1, a1, e1⟩ := loop_prefix (ss := ss) (fuel := fuel + 1) hst hh pre (cmd := cmd)
    (t := NbdReply.wire handle [(flags, .error code msg)] ++ t) (s := s) hsh hpre
    (by rw [hs, wire_append, List.append_assoc])
  obtain ⟨s2, a2, e2⟩ := loop_error (ss := ss) (fuel := fuel) (flags := flags) hst hh (code := code) (msg := msg)
    (cmd := pre.foldl (next ss) cmd) (t := t) (s := s1)
    (fold_shape pre hsh fun x hx => (hpre x hx).2.2.2.2).handle hf hfits
    (by rw [a1.rest]; simp [NbdReply.wire])
  exact ⟨s2, a1.trans a2, by rw [e1, e2]⟩

/-! ## More bytes in the stream -/

/-- A method that did not reach the end of the stream does the same when the stream is longer. -/
def Mono {α : Type} (m : M α) : Prop :=
  ∀ s r s', m s = (r, s') → ((∃ a, r = .ok a) ∨ (s'.rest ≠ [] ∧ r ≠ .error .stuck)) → ∀ more f, ∃ f',
    m { s with rest := s.rest ++ more, frags := f } =
      (r, { s' with rest := s'.rest ++ more, frags := f' })

theorem mono_pure {α : Type} (a : α) : Mono (pure a : M α) := by
  intro s a s' h _ more f
  cases h
  exact ⟨f, rfl⟩

theorem mono_raise {α : Type} (e : Err) : Mono (raise e : M α) := by
  intro s a s' h _ more f
  cases h
  exact ⟨f, rfl⟩

theorem mono_bind {α β : Type} {m : M α} {g : α → M β} (hm : Mono m) (hg : ∀ a, Mono (g a)) :
    Mono (m >>= g) := by
  intro s b s' h hb more f
  cases hr : m s with
  | mk r s1 =>
    cases r with
    | error e =>
      rw [bind_error hr] at h
      cases h
      rcases hb with ⟨a, hb⟩ | ⟨h1, h2⟩
      · cases hb
      · obtain ⟨f', e'⟩ := hm s _ _ hr (.inr ⟨h1, fun h => h2 (by cases h; rfl)⟩) more f
        exact ⟨f', by rw [bind_error e']⟩
    | ok a =>
      rw [bind_ok hr] at h
      obtain ⟨f1, e1⟩ := hm s _ s1 hr (.inl ⟨a, rfl⟩) more f
      obtain ⟨f2, e2⟩ := hg a s1 b s' h hb more f1
      exact ⟨f2, by rw [bind_ok e1, e2]⟩

theorem mono_ite {α : Type} {c : Prop} [Decidable c] {m m' : M α} (h : Mono m) (h' : Mono m') :
    Mono (if c then m else m') := by
  split
  · exact h
  · exact h'

theorem mono_recv (n : Nat) : Mono (recv n) := by
  intro s a s' h hb more f
  by_cases hn : n ≤ s.rest.length
  · obtain ⟨s1, e1, a1⟩ := recvLoop_spec (fuel := n) (s := s) (Nat.le_refl n) hn
    rw [recv, e1] at h
    simp only [Prod.mk.injEq] at h
    obtain ⟨rfl, rfl⟩ := h
    obtain ⟨s2, e2, a2⟩ := recvLoop_spec (fuel := n) (n := n)
      (s := { s with rest := s.rest ++ more, frags := f }) (Nat.le_refl n)
      (by simp only [List.length_append]; omega)
    refine ⟨s2.frags, ?_⟩
    rw [recv, e2]
    simp only [List.take_append_of_le_length hn]
    congr 1
    obtain ⟨r2, f2, t2, c2⟩ := s2
    obtain ⟨r1, f1, t1, c1⟩ := s1
    obtain ⟨x1, x2, x3⟩ := a1
    obtain ⟨y1, y2, y3⟩ := a2
    simp only at x1 x2 x3 y1 y2 y3
    subst x1 x2 x3 y1 y2 y3
    simp only [List.drop_append_of_le_length hn]
  · obtain ⟨s1, e1, a1⟩ := recv_short (n := n) (s := s) (by omega)
    rw [e1] at h
    cases h
    rcases hb with ⟨a, hb⟩ | ⟨h1, _⟩
    · cases hb
    · exact absurd a1.rest h1

theorem mono_recvErrorChunk (l : Int) : Mono (recvErrorChunk l) :=
  mono_bind (mono_recv _) fun _ => mono_ite (mono_raise _) (mono_bind (mono_recv _) fun _ => mono_pure _)

theorem mono_recvExtents (ss : Session) (k : Context) (fuel l : Nat) : Mono (recvExtents ss k fuel l) := by
  induction fuel generalizing l with
  | zero => unfold recvExtents; exact mono_ite (mono_pure _) (mono_raise _)
  | succ fuel ih =>
    unfold recvExtents
    refine mono_ite (mono_pure _) (mono_bind (mono_recv _) fun d => ?_)
    cases unpackExtents ss k (d.length / 8) d with
    | error e => exact mono_raise _
    | ok es => exact mono_bind (ih _) fun _ => mono_pure _

theorem mono_recvReplyChunk (ss : Session) (cmd : Cmd) : Mono (recvReplyChunk ss cmd) := by
  refine mono_bind (mono_recv _) fun h => mono_ite (mono_raise _) (mono_ite
    (mono_bind ?_ fun _ => mono_raise _) (mono_ite (mono_bind ?_ fun _ => mono_pure _) (mono_ite
      (mono_bind ?_ fun _ => mono_pure _) (mono_ite (mono_bind ?_ fun _ => mono_pure _) (mono_ite
        (mono_bind ?_ fun _ => mono_pure _) (mono_ite (mono_bind ?_ fun _ => mono_pure _)
          (mono_bind (mono_raise _) fun _ => mono_pure _)))))))
  · exact mono_bind (mono_recvErrorChunk _) fun _ => mono_ite (mono_raise _) (mono_raise _)
  · exact mono_bind (mono_recvErrorChunk _) fun _ => mono_bind (mono_recv _) fun _ => mono_pure _
  · exact mono_ite (mono_raise _) (mono_ite (mono_raise _) (mono_pure _))
  · refine mono_bind (mono_recv _) fun o => ?_
    cases cmd.buf with
    | none => exact mono_raise _
    | some buf => exact mono_bind (mono_recv _) fun _ => mono_pure _
  · refine mono_ite (mono_raise _) (mono_bind (mono_recv _) fun o => mono_ite (mono_raise _) ?_)
    cases cmd.buf with
    | none => exact mono_raise _
    | some buf => exact mono_ite (mono_raise _) (mono_pure _)
  · refine mono_ite (mono_raise _) (mono_ite (mono_raise _) (mono_bind (mono_recv _) fun o => ?_))
    cases ss.contexts.lookup (field o 0 4) with
    | none => exact mono_raise _
    | some name =>
      refine mono_bind (mono_recvExtents _ _ _ _) fun es => ?_
      cases cmd.reply with
      | none => exact mono_raise _
      | some d => exact mono_pure _

theorem mono_recvSimpleReply (cmd : Cmd) : Mono (recvSimpleReply cmd) := by
  refine mono_bind (mono_recv _) fun h => mono_ite (mono_raise _) (mono_ite (mono_raise _) ?_)
  cases cmd.buf with
  | none => exact mono_pure _
  | some buf => exact mono_bind (mono_recv _) fun _ => mono_pure _

theorem mono_recvReplyLoop (ss : Session) (fuel : Nat) (cmd : Cmd) : Mono (recvReplyLoop ss fuel cmd) := by
  induction fuel generalizing cmd with
  | zero => exact mono_raise _
  | succ fuel ih =>
    refine mono_bind (mono_recv _) fun h => mono_ite (mono_ite (mono_raise _) (mono_recvSimpleReply _))
      (mono_ite (mono_ite (mono_raise _) (mono_bind (mono_recvReplyChunk _ _) fun x =>
        mono_ite (mono_ite (mono_raise _) (mono_pure _)) (ih _))) (mono_raise _))

/-- More fuel does not change a result. -/
theorem loop_fuel {ss : Session} {fuel : Nat} {cmd : Cmd} {r : Except Err Cmd} {s s' : Conn} (hr : r ≠ .error .stuck)
    (h : recvReplyLoop ss fuel cmd s = (r, s')) : recvReplyLoop ss (fuel + 1) cmd s = (r, s') := by
  induction fuel generalizing cmd s with
  | zero => cases h; exact absurd rfl hr
  | succ fuel ih =>
    rw [recvReplyLoop] at h ⊢
    cases hr : recv 4 s with
    | mk r s1 =>
      cases r with
      | error e => rw [bind_error hr] at h ⊢; exact h
      | ok m =>
        rw [bind_ok hr] at h ⊢
        split at h
        next h1 => rw [if_pos h1]; exact h
        next h1 =>
          rw [if_neg h1]
          split at h
          next h2 =>
            rw [if_pos h2]
            split at h
            next h3 => rw [if_pos h3]; exact h
            next h3 =>
              rw [if_neg h3]
              cases hc : recvReplyChunk ss { cmd with onlyStructured := true } s1 with
              | mk rc s2 =>
                cases rc with
                | error e => rw [bind_error hc] at h ⊢; exact h
                | ok x =>
                  rw [bind_ok hc] at h ⊢
                  obtain ⟨c, d⟩ := x
                  cases d with
                  | true => exact h
                  | false => exact ih h
          next h2 => rw [if_neg h2]; exact h

theorem loop_fuel_le {ss : Session} {fuel fuel' : Nat} {cmd : Cmd} {r : Except Err Cmd} {s s' : Conn}
    (hr : r ≠ .error .stuck) (hle : fuel ≤ fuel')
    (h : recvReplyLoop ss fuel cmd s = (r, s')) : recvReplyLoop ss fuel' cmd s = (r, s') := by
  induction hle with
  | refl => exact h
  | step _ ih => exact loop_fuel hr ih

theorem mono_recvReply (ss : Session) (cmd : Cmd) : Mono (recvReply ss cmd) := by
  intro s a s' h hb more f
  obtain ⟨f', e⟩ := mono_recvReplyLoop ss _ cmd s a s' h hb more f
  refine ⟨f', loop_fuel_le ?_ ?_ e⟩
  · rcases hb with ⟨x, rfl⟩ | ⟨_, h2⟩
    · simp
    · exact h2
  · simp only [List.length_append]
    omega

/-- Simple replies. -/
theorem recvReply_simple {ss : Session} {cmd : Cmd} {handle code : Nat} {data t : Bytes} {s : Conn}
    (ho : cmd.onlyStructured = false) (hcode : code < 2 ^ 32) (hh : handle < 2 ^ 64)
    (hs : s.rest = simpleReply handle code data ++ t) :
    ∃ s1, After s (data ++ t) s1 ∧ recvReply ss cmd s =
      (if code ≠ 0 then raise (replyError code)
      else if (handle : Int) ≠ cmd.handle then raise unexpectedHandle
      else
        match cmd.buf with
        | none => pure cmd
        | some buf => do
          let d ← recv buf.length
          pure { cmd with buf := some d } : M Cmd) s1 := by
  unfold recvReply
  obtain ⟨s1, a1, e1⟩ := loop_magic (ss := ss) (cmd := cmd) (fuel := s.rest.length) (m := simpleReplyMagic)
    (t := be 4 code ++ be 8 handle ++ data ++ t) (s := s) (by decide)
    (by rw [hs, simpleReply]; simp only [List.append_assoc]; rfl)
  rw [e1, if_pos rfl, if_neg (by simp [ho])]
  unfold recvSimpleReply
  obtain ⟨s2, e2, a2⟩ := recv_append (d := be 4 code ++ be 8 handle) (t := data ++ t) (s := s1) (n := 12)
    (by rw [a1.rest]; simp only [List.append_assoc]) (by simp [be_length])
  have f1 : field (be 4 code ++ be 8 handle) 0 4 = code := field_head hcode
  have f2 : field (be 4 code ++ be 8 handle) 4 8 = handle := by
    have := field_mid (p := be 4 code) (q := []) (o := 4) (k := 8) (v := handle) (be_length ..) hh
    rwa [List.append_nil] at this
  refine ⟨s2, a1.trans a2, ?_⟩
  rw [bind_ok e2, f1, f2]
  rfl

/-! ## Nothing is sent while receiving, and receiving ends -/

/-- On a stream of at most `n` bytes the method sends nothing, never puts bytes back, and its errors are
exceptions (it is not stuck). -/
def Tame {α : Type} (n : Nat) (m : M α) : Prop :=
  ∀ s : Conn, s.rest.length ≤ n → (m s).2.sent = s.sent ∧ (m s).2.counter = s.counter ∧
    (m s).2.rest.length ≤ s.rest.length ∧ ∀ e, (m s).1 = .error e → External e

theorem tame_pure {α : Type} {n : Nat} (a : α) : Tame n (pure a : M α) :=
  fun _ _ => ⟨rfl, rfl, Nat.le_refl _, by simp [pure_run]⟩

theorem tame_raise {α : Type} {n : Nat} {e : Err} (h : External e) : Tame n (raise e : M α) :=
  fun _ _ => ⟨rfl, rfl, Nat.le_refl _, by simpa [raise] using h⟩

theorem tame_bind' {α β : Type} {n : Nat} {m : M α} {g : α → M β} (hm : Tame n m)
    (hg : ∀ a, (∃ s s', m s = (.ok a, s')) → Tame n (g a)) : Tame n (m >>= g) := by
  intro s hs
  obtain ⟨h1, h2, h3, h4⟩ := hm s hs
  cases hr : m s with
  | mk r s1 =>
    rw [hr] at h1 h2 h3 h4
    simp only at h1 h2 h3 h4
    cases r with
    | error e =>
      rw [bind_error hr]
      exact ⟨h1, h2, h3, by simpa using h4⟩
    | ok a =>
      rw [bind_ok hr]
      obtain ⟨g1, g2, g3, g4⟩ := hg a ⟨s, s1, hr⟩ s1 (by omega)
      exact ⟨g1.trans h1, g2.trans h2, by omega, g4⟩

theorem tame_bind {α β : Type} {n : Nat} {m : M α} {g : α → M β} (hm : Tame n m) (hg : ∀ a, Tame n (g a)) :
    Tame n (m >>= g) := tame_bind' hm fun a _ => hg a

theorem tame_ite {α : Type} {n : Nat} {c : Prop} [Decidable c] {m m' : M α} (h : Tame n m) (h' : Tame n m') :
    Tame n (if c then m else m') := by
  split
  · exact h
  · exact h'

theorem tame_recv {n : Nat} (k : Nat) : Tame n (recv k) := by
  intro s _
  by_cases hk : k ≤ s.rest.length
  · obtain ⟨s1, e1, a1⟩ := recvLoop_spec (fuel := k) (s := s) (Nat.le_refl k) hk
    rw [recv, e1]
    refine ⟨a1.sent, a1.counter, ?_, by simp⟩
    rw [a1.rest, List.length_drop]
    omega
  · obtain ⟨s1, e1, a1⟩ := recv_short (n := k) (s := s) (by omega)
    rw [e1]
    exact ⟨a1.sent, a1.counter, by simp [a1.rest], by simp [protocolError, External]⟩

theorem recv_ok {k : Nat} {s s' : Conn} {d : Bytes} (h : recv k s = (.ok d, s')) :
    d = s.rest.take k ∧ d.length = k ∧ s'.rest.length + k = s.rest.length := by
  by_cases hk : k ≤ s.rest.length
  · obtain ⟨s1, e1, a1⟩ := recvLoop_spec (fuel := k) (s := s) (Nat.le_refl k) hk
    rw [recv, e1] at h
    simp only [Prod.mk.injEq, Except.ok.injEq] at h
    obtain ⟨rfl, rfl⟩ := h
    rw [a1.rest, List.length_drop, List.length_take]
    exact ⟨rfl, by omega, by omega⟩
  · obtain ⟨s1, e1, a1⟩ := recv_short (n := k) (s := s) (by omega)
    rw [e1] at h
    cases h

theorem tame_recvErrorChunk {n : Nat} (l : Int) : Tame n (recvErrorChunk l) :=
  tame_bind (tame_recv _) fun _ => tame_ite (tame_raise (by simp [protocolError, External]))
    (tame_bind (tame_recv _) fun _ => tame_pure _)

theorem unpack_external {l f : Nat} {k : Context} {e : Err} (h : Ext.unpack l f k = .error e) : External e := by
  unfold Ext.unpack at h
  split at h
  · cases h; trivial
  · cases h

theorem unpackExtents_external {ss : Session} {k : Context} {c : Nat} {b : Bytes} {e : Err}
    (h : unpackExtents ss k c b = .error e) : External e := by
  induction c generalizing b with
  | zero => cases h
  | succ c ih =>
    unfold unpackExtents at h
    split at h
    next e he =>
      cases h
      exact unpack_external he
    · split at h
      · cases h; trivial
      split at h
      · cases h; trivial
      · split at h
        next e he =>
          cases h
          exact ih he
        · cases h

theorem tame_recvExtents {n : Nat} (ss : Session) (k : Context) {fuel l : Nat} (hl : l ≤ fuel) :
    Tame n (recvExtents ss k fuel l) := by
  induction fuel generalizing l with
  | zero =>
    obtain rfl : l = 0 := by omega
    unfold recvExtents
    rw [if_pos rfl]
    exact tame_pure _
  | succ fuel ih =>
    unfold recvExtents
    split
    · exact tame_pure _
    next h0 =>
      refine tame_bind' (tame_recv _) fun d hd => ?_
      obtain ⟨s, s', hd⟩ := hd
      have hd := (recv_ok hd).2.1
      cases hu : unpackExtents ss k (d.length / 8) d with
      | error e =>
        exact tame_raise (unpackExtents_external hu)
      | ok es => exact tame_bind (ih (by omega)) fun _ => tame_pure _

theorem tame_recvReplyChunk {n : Nat} (ss : Session) (cmd : Cmd) : Tame n (recvReplyChunk ss cmd) := by
  have x1 : External protocolError := trivial
  have x2 : External invalidLength := trivial
  refine tame_bind (tame_recv _) fun h => tame_ite (tame_raise (by simp [unexpectedHandle, External])) (tame_ite
    (tame_bind ?_ fun _ => tame_raise x1) (tame_ite (tame_bind ?_ fun _ => tame_pure _) (tame_ite
      (tame_bind ?_ fun _ => tame_pure _) (tame_ite (tame_bind ?_ fun _ => tame_pure _) (tame_ite
        (tame_bind ?_ fun _ => tame_pure _) (tame_ite (tame_bind ?_ fun _ => tame_pure _)
          (tame_bind (tame_raise x1) fun _ => tame_pure _)))))))
  · exact tame_bind (tame_recvErrorChunk _) fun _ => tame_ite (tame_raise (by simp [replyError, External])) (tame_raise x1)
  · exact tame_bind (tame_recvErrorChunk _) fun _ => tame_bind (tame_recv _) fun _ => tame_pure _
  · exact tame_ite (tame_raise x1) (tame_ite (tame_raise x2) (tame_pure _))
  · refine tame_bind (tame_recv _) fun o => ?_
    cases cmd.buf with
    | none => exact tame_raise trivial
    | some buf => exact tame_bind (tame_recv _) fun _ => tame_pure _
  · refine tame_ite (tame_raise x2) (tame_bind (tame_recv _) fun o => tame_ite (tame_raise x1) ?_)
    cases cmd.buf with
    | none => exact tame_raise trivial
    | some buf => exact tame_ite (tame_raise trivial) (tame_pure _)
  · refine tame_ite (tame_raise x1) (tame_ite (tame_raise x1) (tame_bind (tame_recv _) fun o => ?_))
    cases ss.contexts.lookup (field o 0 4) with
    | none => exact tame_raise x1
    | some name =>
      refine tame_bind (tame_recvExtents _ _ (Nat.le_refl _)) fun es => ?_
      cases cmd.reply with
      | none => exact tame_raise trivial
      | some d => exact tame_pure _

theorem tame_recvSimpleReply {n : Nat} (cmd : Cmd) : Tame n (recvSimpleReply cmd) := by
  refine tame_bind (tame_recv _) fun h => tame_ite (tame_raise (by simp [replyError, External]))
    (tame_ite (tame_raise (by simp [unexpectedHandle, External])) ?_)
  cases cmd.buf with
  | none => exact tame_pure _
  | some buf => exact tame_bind (tame_recv _) fun _ => tame_pure _

theorem tame_recvReplyLoop (ss : Session) (n : Nat) (cmd : Cmd) : Tame n (recvReplyLoop ss (n + 1) cmd) := by
  have x1 : External protocolError := trivial
  induction n using Nat.strongRecOn generalizing cmd with
  | ind n ih =>
    intro s hs
    obtain ⟨h1, h2, h3, h4⟩ := tame_recv 4 s hs
    rw [recvReplyLoop]
    cases hr : recv 4 s with
    | mk r s1 =>
      rw [hr] at h1 h2 h3 h4
      simp only at h1 h2 h3 h4
      cases r with
      | error e =>
        rw [bind_error hr]
        exact ⟨h1, h2, h3, by simpa using h4⟩
      | ok d =>
        rw [bind_ok hr]
        have hd := (recv_ok hr).2.2
        have key : ∀ m : M Cmd, Tame (n - 4) m → (m s1).2.sent = s.sent ∧ (m s1).2.counter = s.counter ∧
            (m s1).2.rest.length ≤ s.rest.length ∧ ∀ e, (m s1).1 = .error e → External e := by
          intro m hm
          obtain ⟨g1, g2, g3, g4⟩ := hm s1 (by omega)
          exact ⟨g1.trans h1, g2.trans h2, by omega, g4⟩
        refine key _ (tame_ite (tame_ite (tame_raise x1) (tame_recvSimpleReply _))
          (tame_ite (tame_ite (tame_raise x1) (tame_bind (tame_recvReplyChunk _ _) fun x => tame_ite
            (tame_ite (tame_raise (by simp [requestError, External])) (tame_pure _)) ?_)) (tame_raise x1)))
        intro s2 hs2
        obtain ⟨m, rfl⟩ : ∃ m, n = m + 1 := ⟨n - 1, by omega⟩
        exact ih m (by omega) _ s2 (by omega)

theorem tame_recvReply (ss : Session) (n : Nat) (cmd : Cmd) : Tame n (recvReply ss cmd) :=
  fun s _ => tame_recvReplyLoop ss s.rest.length cmd s (Nat.le_refl _)

/-! ## Encoding -/

theorem pack_nat {k v : Nat} (h : v < 256 ^ k) : pack k (v : Int) = .ok (be k v) := by
  rw [pack, if_pos ⟨by omega, by exact_mod_cast h⟩, packNat_eq, Int.toNat_natCast]

theorem pack_ok {k : Nat} {v : Int} {b : Bytes} (h : pack k v = .ok b) :
    ∃ n : Nat, v = n ∧ n < 256 ^ k ∧ b = be k n := by
  unfold pack at h
  split at h
  next hv =>
    simp only [Except.ok.injEq] at h
    refine ⟨v.toNat, by omega, by omega, ?_⟩
    rw [← h, packNat_eq]
  · cases h

theorem toBytes_ok {c : Cmd} {b : Bytes} : c.toBytes = .ok b ↔
    ∃ r : NbdRequest, r.Fits ∧ c.flags = r.flags ∧ c.type = r.type ∧ c.handle = r.handle ∧
      c.offset = r.offset ∧ c.length = r.length ∧ b = r.wire := by
  constructor
  · intro h
    unfold Cmd.toBytes at h
    split at h
    next a b' c' d e f h1 h2 h3 h4 h5 h6 =>
      obtain ⟨n1, e1, l1, rfl⟩ := pack_ok h1
      obtain ⟨n2, e2, l2, rfl⟩ := pack_ok h2
      obtain ⟨n3, e3, l3, rfl⟩ := pack_ok h3
      obtain ⟨n4, e4, l4, rfl⟩ := pack_ok h4
      obtain ⟨n5, e5, l5, rfl⟩ := pack_ok h5
      obtain ⟨n6, e6, l6, rfl⟩ := pack_ok h6
      simp only [Except.ok.injEq] at h
      obtain rfl : requestMagic = n1 := by exact_mod_cast e1
      exact ⟨⟨n2, n3, n4, n5, n6⟩, ⟨l2, l3, l4, l5, l6⟩, e2, e3, e4, e5, e6, h.symm⟩
    · cases h
  · rintro ⟨⟨f, ty, hd, o, l⟩, ⟨f1, f2, f3, f4, f5⟩, h1, h2, h3, h4, h5, rfl⟩
    simp only at f1 f2 f3 f4 f5 h1 h2 h3 h4 h5
    unfold Cmd.toBytes
    rw [h1, h2, h3, h4, h5, pack_nat (k := 4) (v := requestMagic) (by decide), pack_nat (k := 2) f1,
      pack_nat (k := 2) f2, pack_nat (k := 8) f3, pack_nat (k := 8) f4, pack_nat (k := 4) f5]
    rfl

theorem toBytes_error {c : Cmd} {e : Err} (h : c.toBytes = .error e) : e = structError := by
  unfold Cmd.toBytes at h
  split at h
  · cases h
  · simpa using h.symm

/-- The fields of a request on the wire. -/
theorem request_fields {r : NbdRequest} (h : r.Fits) :
    field r.wire 4 2 = r.flags ∧ field r.wire 6 2 = r.type ∧ field r.wire 8 8 = r.handle ∧
      field r.wire 16 8 = r.offset ∧ field r.wire 24 4 = r.length := by
  obtain ⟨h1, h2, h3, h4, h5⟩ := h
  have e : r.wire = be 4 0x25609513 ++ (be 2 r.flags ++ (be 2 r.type ++ (be 8 r.handle ++
    (be 8 r.offset ++ (be 4 r.length ++ []))))) := by
    simp only [NbdRequest.wire, List.append_assoc, List.append_nil]
  refine ⟨?_, ?_, ?_, ?_, ?_⟩
  · rw [e]
    exact field_mid (be_length ..) h1
  · rw [e, ← List.append_assoc]
    exact field_mid (by simp [be_length]) h2
  · rw [e, ← List.append_assoc, ← List.append_assoc]
    exact field_mid (by simp [be_length]) h3
  · rw [e, ← List.append_assoc, ← List.append_assoc, ← List.append_assoc]
    exact field_mid (by simp [be_length]) h4
  · rw [e, ← List.append_assoc, ← List.append_assoc, ← List.append_assoc, ← List.append_assoc]
    exact field_mid (by simp [be_length]) h5

/-- Sending a command. -/
theorem sendCommand_fits {c : Cmd} {r : NbdRequest} (hr : r.Fits) (h1 : c.flags = r.flags) (h2 : c.type = r.type)
    (h3 : c.handle = r.handle) (h4 : c.offset = r.offset) (h5 : c.length = r.length) (s : Conn) :
    sendCommand c s = (.ok (), { s with sent := s.sent ++ r.wire }) := by
  unfold sendCommand
  rw [toBytes_ok.2 ⟨r, hr, h1, h2, h3, h4, h5, rfl⟩]
  rfl

theorem nextHandle_run (s : Conn) : nextHandle s = (.ok s.counter, { s with counter := s.counter + 1 }) := rfl

end Imageio.Nbd
