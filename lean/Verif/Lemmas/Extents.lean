import Verif.Spec.Extents
import Verif.Model.Extents

namespace Imageio.Extents
open Imageio.Spec

/-- An extent as a run. -/
def Ext.run (e : Ext) : Nat × Nat := (e.length, e.flags)

/-- The flags of every byte. -/
def bytes (l : List Ext) : List Nat := expand (l.map Ext.run)

@[simp] theorem bytes_nil : bytes [] = [] := rfl

@[simp] theorem bytes_cons (e : Ext) (l : List Ext) :
    bytes (e :: l) = List.replicate e.length e.flags ++ bytes l := by
  simp [bytes, expand, Ext.run]

@[simp] theorem bytes_append (l l' : List Ext) : bytes (l ++ l') = bytes l ++ bytes l' := by
  simp [bytes, expand]

theorem zipWith_replicate_append {n : Nat} {a b : Nat} {f : Nat → Nat → Nat} (l l' : List Nat) :
    List.zipWith f (List.replicate n a ++ l) (List.replicate n b ++ l') =
      List.replicate n (f a b) ++ List.zipWith f l l' := by
  rw [List.zipWith_append (by simp), List.zipWith_replicate_replicate]
where
  List.zipWith_replicate_replicate {n a b : Nat} {f : Nat → Nat → Nat} :
      List.zipWith f (List.replicate n a) (List.replicate n b) = List.replicate n (f a b) := by
    simp

theorem replicate_add {a : Nat} (n m : Nat) :
    List.replicate (n + m) a = List.replicate n a ++ List.replicate m a := by
  rw [List.replicate_append_replicate]

/-- Merging combines the flags byte by byte. -/
theorem bytes_merged (as bs : List Ext) :
    bytes (merged as bs) = List.zipWith (· ||| ·) (bytes as) (bytes bs) := by
  fun_induction merged as bs with
  | case1 => simp
  | case2 => simp
  | case3 a as b bs h ih =>
    rw [bytes_cons, bytes_cons, bytes_cons, ih, h, zipWith_replicate_append]
  | case4 a as b bs h1 h2 ih =>
    rw [bytes_cons, bytes_cons, bytes_cons, ih, bytes_cons]
    obtain ⟨k, hk⟩ := Nat.exists_eq_add_of_lt h2
    have e1 : a.length - b.length = k + 1 := by omega
    have e2 : List.replicate a.length a.flags =
        List.replicate b.length a.flags ++ List.replicate (k + 1) a.flags := by
      rw [← replicate_add]; congr 1
    rw [e2, e1, List.append_assoc, zipWith_replicate_append]
  | case5 a as b bs h1 h2 ih =>
    rw [bytes_cons, bytes_cons, bytes_cons, ih, bytes_cons]
    have e2 : List.replicate b.length b.flags =
        List.replicate a.length b.flags ++ List.replicate (b.length - a.length) b.flags := by
      rw [← replicate_add]; congr 1; omega
    rw [e2, List.append_assoc, zipWith_replicate_append]

/-- All extents are not empty. -/
def Pos (l : List Ext) : Prop := ∀ e ∈ l, 0 < e.length

theorem merged_pos {as bs : List Ext} (ha : Pos as) (hb : Pos bs) : Pos (merged as bs) := by
  fun_induction merged as bs with
  | case1 => intro e he; simp at he
  | case2 => intro e he; simp at he
  | case3 a as b bs h ih =>
    intro e he
    rcases List.mem_cons.1 he with rfl | he
    · exact ha a (by simp)
    · exact ih (fun e he => ha e (by simp [he])) (fun e he => hb e (by simp [he])) e he
  | case4 a as b bs h1 h2 ih =>
    intro e he
    rcases List.mem_cons.1 he with rfl | he
    · exact hb b (by simp)
    · refine ih ?_ (fun e he => hb e (by simp [he])) e he
      intro e he
      rcases List.mem_cons.1 he with rfl | he
      · simp only; omega
      · exact ha e (by simp [he])
  | case5 a as b bs h1 h2 ih =>
    intro e he
    rcases List.mem_cons.1 he with rfl | he
    · exact ha a (by simp)
    · refine ih (fun e he => ha e (by simp [he])) ?_ e he
      intro e he
      rcases List.mem_cons.1 he with rfl | he
      · simp only; omega
      · exact hb e (by simp [he])

theorem merged_ne_nil {as bs : List Ext} (ha : as ≠ []) (hb : bs ≠ []) : merged as bs ≠ [] := by
  cases as with
  | nil => exact absurd rfl ha
  | cons a as =>
    cases bs with
    | nil => exact absurd rfl hb
    | cons b bs =>
      rw [merged]
      split
      · simp
      · split <;> simp

/-- The extents found so far. -/
def Loop.all (s : Loop) : List Ext := s.out ++ s.cur.toList

/-- The extents found so far are in the shortest form, and none was found only if
nothing was found. -/
structure Loop.Good (s : Loop) : Prop where
  short : Shortest (s.all.map Ext.run)
  start : s.cur = none → s.out = []

theorem shortest_snoc_merge {l : List Ext} {a : Ext} {n : Nat}
    (h : Shortest ((l ++ [a]).map Ext.run)) (hn : a.length ≤ n) :
    Shortest ((l ++ [({ length := n, flags := a.flags } : Ext)]).map Ext.run) := by
  induction l with
  | nil =>
    simp only [List.nil_append, List.map_cons, List.map_nil, Ext.run] at h ⊢
    cases h with
    | one h => exact .one (by omega)
  | cons b l ih =>
    cases l with
    | nil =>
      simp only [List.cons_append, List.nil_append, List.map_cons, List.map_nil, Ext.run] at h ⊢
      cases h with
      | cons h hne hl => cases hl with
        | one h' => exact .cons h hne (.one (by omega))
    | cons c l =>
      simp only [List.cons_append, List.map_cons, Ext.run] at h ih ⊢
      cases h with
      | cons h hne hl => exact .cons h hne (ih hl)

theorem shortest_snoc_new {l : List Ext} {a b : Ext} (h : Shortest ((l ++ [a]).map Ext.run))
    (hne : a.flags ≠ b.flags) (hb : 0 < b.length) : Shortest ((l ++ [a] ++ [b]).map Ext.run) := by
  induction l with
  | nil =>
    simp only [List.nil_append, List.map_cons, List.map_nil, Ext.run, List.cons_append] at h ⊢
    cases h with
    | one h => exact .cons h hne (.one hb)
  | cons c l ih =>
    cases l with
    | nil =>
      simp only [List.cons_append, List.nil_append, List.map_cons, List.map_nil, Ext.run] at h ih ⊢
      cases h with
      | cons h hne hl => exact .cons h hne (ih hl)
    | cons d l =>
      simp only [List.cons_append, List.map_cons, Ext.run] at h ih ⊢
      cases h with
      | cons h hne hl => exact .cons h hne (ih hl)

theorem Loop.add_good {s : Loop} (h : s.Good) {e : Ext} (he : 0 < e.length) : (s.add e).Good := by
  obtain ⟨off, cur, out⟩ := s
  cases cur with
  | none =>
    have hs := h.start rfl
    simp only at hs
    subst hs
    refine ⟨?_, by simp [Loop.add]⟩
    simpa [Loop.add, Loop.all, Ext.run] using Shortest.one he
  | some c =>
    have hs := h.short
    simp only [Loop.all, Option.toList_some] at hs
    by_cases hf : c.flags = e.flags
    · refine ⟨?_, by simp [Loop.add, hf]⟩
      simp only [Loop.add, hf, ↓reduceIte, Loop.all, Option.toList_some]
      have := shortest_snoc_merge hs (n := c.length + e.length) (by omega)
      rwa [hf] at this
    · refine ⟨?_, by simp [Loop.add, hf]⟩
      simp only [Loop.add, if_neg hf, Loop.all, Option.toList_some]
      exact shortest_snoc_new hs hf he

theorem Loop.add_offset (s : Loop) (e : Ext) : (s.add e).offset = s.offset + e.length := by
  unfold Loop.add
  split
  · rfl
  · split <;> rfl

theorem Loop.add_bytes {s : Loop} (h : s.cur = none → s.out = []) (e : Ext) :
    bytes (s.add e).all = bytes s.all ++ List.replicate e.length e.flags := by
  unfold Loop.add
  split
  next hc =>
    simp [Loop.all, hc, h hc]
  next c hc =>
    split
    next hf =>
      simp only [Loop.all, hc, Option.toList_some, bytes_append, bytes_cons, bytes_nil,
        List.append_nil, replicate_add, hf, List.append_assoc]
    next hf =>
      simp [Loop.all, hc]

/-- One reply. -/
theorem addReply_spec {end_ : Nat} {exts : List Ext} {s : Loop} (hg : s.Good) (hp : Pos exts)
    (hlt : s.offset < end_) :
    (addReply end_ exts s).Good ∧
    (addReply end_ exts s).offset = min end_ (s.offset + (bytes exts).length) ∧
    bytes (addReply end_ exts s).all = bytes s.all ++ (bytes exts).take (end_ - s.offset) := by
  induction exts generalizing s with
  | nil =>
    refine ⟨hg, ?_, ?_⟩
    · simp only [addReply, bytes_nil, List.length_nil]; omega
    · simp [addReply]
  | cons e es ih =>
    have he : 0 < e.length := hp e (by simp)
    have hes : Pos es := fun x hx => hp x (by simp [hx])
    simp only [addReply]
    by_cases hc : s.offset + e.length > end_
    · rw [if_pos hc]
      have hoff := Loop.add_offset s { e with length := end_ - s.offset }
      simp only at hoff
      rw [if_pos (by omega)]
      refine ⟨Loop.add_good hg (by simp only; omega), by simp only [bytes_cons, List.length_append, List.length_replicate]; omega, ?_⟩
      rw [Loop.add_bytes hg.start, bytes_cons, List.take_append_of_le_length (by simp; omega),
        List.take_replicate]
      congr 2
      simp only
      omega
    · rw [if_neg hc]
      have hoff := Loop.add_offset s e
      have hb := Loop.add_bytes hg.start e
      have hg' := Loop.add_good hg he
      by_cases hend : (s.add e).offset = end_
      · rw [if_pos hend]
        refine ⟨hg', by simp only [bytes_cons, List.length_append, List.length_replicate]; omega, ?_⟩
        rw [hb, bytes_cons, List.take_append_of_le_length (by simp; omega), List.take_replicate]
        congr 2
        omega
      · rw [if_neg hend]
        obtain ⟨h1, h2, h3⟩ := ih hg' hes (by omega)
        refine ⟨h1, ?_, ?_⟩
        · rw [h2, hoff]
          simp only [bytes_cons, List.length_append, List.length_replicate]
          omega
        · have ht : (List.replicate e.length e.flags).take (end_ - s.offset) =
              List.replicate e.length e.flags :=
            List.take_of_length_le (by rw [List.length_replicate]; omega)
          rw [h3, hb, bytes_cons, hoff, List.append_assoc, List.take_append, ht,
            List.length_replicate, Nat.sub_add_eq]

theorem bytes_length_pos {l : List Ext} (h : Pos l) (hne : l ≠ []) : 0 < (bytes l).length := by
  cases l with
  | nil => exact absurd rfl hne
  | cons e l =>
    have := h e (by simp)
    simp only [bytes_cons, List.length_append, List.length_replicate]
    omega

/-- What the commands of one client may answer: `f n off len exts` for command number `n`. -/
theorem extentsLoop_spec {client : Client} {dirty : Bool} {end_ : Nat}
    (P : Nat → Nat → Prop)
    (hP : ∀ n off len r exts, off < end_ → client n off len = .ok r → replyExtents dirty r = .ok exts →
      Pos exts ∧ exts ≠ [] ∧ ∀ j (hj : j < (bytes exts).length), off + j < end_ →
        P (off + j) (bytes exts)[j])
    (fuel n : Nat) (s s' : Loop) (hg : s.Good) (hle : s.offset ≤ end_)
    (h : extentsLoop client dirty end_ fuel n s = .ok s') :
    s'.Good ∧ s'.offset = end_ ∧
    ∃ l, bytes s'.all = bytes s.all ++ l ∧ l.length = end_ - s.offset ∧
      ∀ j (hj : j < l.length), P (s.offset + j) l[j] := by
  induction fuel generalizing n s with
  | zero =>
    unfold extentsLoop at h
    split at h
    · simp at h
    · simp only [Except.ok.injEq] at h
      subst h
      exact ⟨hg, by omega, [], by simp, by simp; omega, by simp⟩
  | succ fuel ih =>
    unfold extentsLoop at h
    split at h
    next hlt =>
      simp only at h
      split at h
      · simp at h
      next r hr =>
      split at h
      · simp at h
      next exts he =>
      obtain ⟨p1, p2, p3⟩ := hP _ _ _ _ _ hlt hr he
      obtain ⟨a1, a2, a3⟩ := addReply_spec hg p1 hlt
      have hpos := bytes_length_pos p1 p2
      obtain ⟨i1, i2, l, i3, i4, i5⟩ := ih _ _ a1 (by omega) h
      refine ⟨i1, i2, (bytes exts).take (end_ - s.offset) ++ l, ?_, ?_, ?_⟩
      · rw [i3, a3, List.append_assoc]
      · rw [List.length_append, List.length_take]; omega
      · intro j hj
        by_cases hj2 : j < ((bytes exts).take (end_ - s.offset)).length
        · have hj3 := hj2
          rw [List.length_take] at hj3
          rw [List.getElem_append_left hj2, List.getElem_take]
          exact p3 j (by omega) (by omega)
        · rw [List.length_append] at hj
          have hj4 : ((bytes exts).take (end_ - s.offset)).length ≤ j := by omega
          have hl' := i5 (j - ((bytes exts).take (end_ - s.offset)).length) (by omega)
          rw [List.getElem_append_right hj4]
          have e : (addReply end_ exts s).offset +
              (j - ((bytes exts).take (end_ - s.offset)).length) = s.offset + j := by
            rw [List.length_take] at hj4 ⊢
            omega
          rwa [e] at hl'
    next hge =>
      simp only [Except.ok.injEq] at h
      subst h
      exact ⟨hg, by omega, [], by simp, by simp; omega, by simp⟩

/-- The runs of a shortest description are determined by the bytes. -/
theorem shortest_unique {l l' : List (Nat × Nat)} (h : Shortest l) (h' : Shortest l')
    (he : expand l = expand l') : l = l' := by
  have len1 : ∀ {n a} {t : List (Nat × Nat)}, expand ((n, a) :: t) = List.replicate n a ++ expand t := by
    intro n a t; simp [expand]
  have head : ∀ {n m : Nat} {a b : Nat} {t u : List (Nat × Nat)}, 0 < n → 0 < m →
      List.replicate n a ++ expand t = List.replicate m b ++ expand u → a = b := by
    intro n m a b t u hn hm h
    cases n with
    | zero => omega
    | succ n =>
      cases m with
      | zero => omega
      | succ m =>
        simp only [List.replicate_succ, List.cons_append, List.cons.injEq] at h
        exact h.1
  have pos : ∀ {n : Nat} {a : Nat} {t : List (Nat × Nat)}, Shortest ((n, a) :: t) → 0 < n := by
    intro n a t h
    cases h with
    | one h => exact h
    | cons h => exact h
  have next : ∀ {n : Nat} {a : Nat} {t : List (Nat × Nat)}, Shortest ((n, a) :: t) →
      Shortest t ∧ ∀ x, (expand t).head? = some x → x ≠ a := by
    intro n a t h
    cases h with
    | one h => exact ⟨.nil, by simp [expand]⟩
    | cons h hne hl =>
      refine ⟨hl, fun x hx => ?_⟩
      have := pos hl
      rw [len1] at hx
      obtain ⟨k, hk⟩ := Nat.exists_eq_succ_of_ne_zero (Nat.ne_of_gt this)
      rw [hk] at hx
      simp only [List.replicate_succ, List.cons_append, List.head?_cons, Option.some.injEq] at hx
      rw [← hx]
      exact fun h => hne h.symm
  induction l generalizing l' with
  | nil =>
    cases l' with
    | nil => rfl
    | cons r t =>
      obtain ⟨n, a⟩ := r
      have := congrArg List.length he
      have := pos h'
      simp [expand] at *
      omega
  | cons r t ih =>
    obtain ⟨n, a⟩ := r
    cases l' with
    | nil =>
      have := congrArg List.length he
      have := pos h
      simp [expand] at *
      omega
    | cons r' t' =>
      obtain ⟨m, b⟩ := r'
      have hn := pos h
      have hm := pos h'
      rw [len1, len1] at he
      obtain rfl := head hn hm he
      obtain ⟨s1, d1⟩ := next h
      obtain ⟨s2, d2⟩ := next h'
      rcases Nat.lt_trichotomy n m with hlt | rfl | hgt
      · exfalso
        obtain ⟨k, rfl⟩ := Nat.exists_eq_add_of_lt hlt
        rw [show n + k + 1 = n + (k + 1) by omega, replicate_add, List.append_assoc,
          List.append_cancel_left_eq] at he
        exact d1 a (by rw [he]; simp [List.replicate_succ]) rfl
      · rw [List.append_cancel_left_eq] at he
        rw [ih s1 s2 he]
      · exfalso
        obtain ⟨k, rfl⟩ := Nat.exists_eq_add_of_lt hgt
        rw [show m + k + 1 = m + (k + 1) by omega, replicate_add, List.append_assoc,
          List.append_cancel_left_eq] at he
        exact d2 a (by rw [← he]; simp [List.replicate_succ]) rfl

end Imageio.Extents

namespace Imageio.Extents
open Imageio.Spec

/-! ## Replies on the wire -/

/-- The private flags of an extent. -/
def norm (context : Context) (flags : Nat) : Nat :=
  match context with
  | .alloc => flags &&& (stateHole ||| stateZero)
  | .dirty => if flags &&& stateDirty ≠ 0 then extentDirty else 0
  | .depth => if flags = 0 then extentBacking else 0

theorem recvExtents_spec {mb : Nat} {ctx : Context} {raw : List (Nat × Nat)} {es : List Ext}
    (h : recvExtents mb ctx raw = .ok es) :
    Pos es ∧ es.length = raw.length ∧ bytes es = (expand raw).map (norm ctx) := by
  induction raw generalizing es with
  | nil =>
    simp only [recvExtents, Except.ok.injEq] at h
    subst h
    exact ⟨fun e he => by simp at he, rfl, rfl⟩
  | cons r raw ih =>
    obtain ⟨len, fl⟩ := r
    simp only [recvExtents] at h
    unfold Ext.unpack at h
    by_cases hl : len = 0
    · simp [hl] at h
    · rw [if_neg hl] at h
      simp only at h
      by_cases hmb : mb = 0
      · simp [hmb] at h
      rw [if_neg hmb] at h
      split at h
      · simp at h
      · split at h
        · simp at h
        next es' he =>
          simp only [Except.ok.injEq] at h
          subst h
          obtain ⟨p1, p2, p3⟩ := ih he
          refine ⟨?_, by simp [p2], ?_⟩
          · intro e he
            rcases List.mem_cons.1 he with rfl | he
            · simp only; omega
            · exact p1 e he
          · rw [bytes_cons, p3]
            simp only [expand, List.flatMap_cons, List.map_append, List.map_replicate]
            rfl

theorem recvExtents_ok {mb : Nat} {ctx : Context} {raw : List (Nat × Nat)}
    (h : ∀ d ∈ raw, 0 < d.1 ∧ d.1 % mb = 0) : ∃ es, recvExtents mb ctx raw = .ok es := by
  induction raw with
  | nil => exact ⟨[], rfl⟩
  | cons r raw ih =>
    obtain ⟨len, fl⟩ := r
    obtain ⟨es, he⟩ := ih (fun d hd => h d (by simp [hd]))
    have := h (len, fl) (by simp)
    simp only at this
    have hmb : mb ≠ 0 := by
      rintro rfl
      rw [Nat.mod_zero] at this
      omega
    simp only [recvExtents, Ext.unpack, if_neg (show ¬ len = 0 by omega), if_neg hmb, this.2, he]
    exact ⟨_, rfl⟩

theorem recvContext_spec {mb : Nat} {ctx : Context} {raw : Option (List (Nat × Nat))}
    {o : Option (List Ext)} (h : recvContext mb ctx raw = .ok o) :
    (raw = none ∧ o = none) ∨
    ∃ l es, raw = some l ∧ o = some es ∧ Pos es ∧ es ≠ [] ∧ bytes es = (expand l).map (norm ctx) := by
  cases raw with
  | none =>
    simp only [recvContext, Except.ok.injEq] at h
    exact .inl ⟨rfl, h.symm⟩
  | some l =>
    cases l with
    | nil => simp [recvContext] at h
    | cons d l =>
      simp only [recvContext] at h
      split at h
      · simp at h
      next es he =>
        simp only [Except.ok.injEq] at h
        obtain ⟨p1, p2, p3⟩ := recvExtents_spec he
        refine .inr ⟨_, es, rfl, h.symm, p1, ?_, p3⟩
        intro hn
        simp [hn] at p2

theorem wireClient_spec {mb : Nat} {raw : (n offset length : Nat) → Except Err RawReply}
    {n off len : Nat} {r : Reply} (h : wireClient mb raw n off len = .ok r) :
    ∃ rr, raw n off len = .ok rr ∧ recvContext mb .alloc rr.alloc = .ok r.alloc ∧
      recvContext mb .depth rr.depth = .ok r.depth ∧ recvContext mb .dirty rr.dirty = .ok r.dirty := by
  unfold wireClient at h
  split at h
  · simp at h
  next rr hr =>
    split at h
    next a d b ha hd hb =>
      simp only [Except.ok.injEq] at h
      subst h
      exact ⟨rr, hr, ha, hd, hb⟩
    · simp at h

/-- What `nbdutil.extents` yields. -/
theorem extents_spec {client : Client} {dirty : Bool} {size : Nat} (hs : 0 < size)
    (P : Nat → Nat → Prop)
    (hP : ∀ n off len r exts, off < size → client n off len = .ok r → replyExtents dirty r = .ok exts →
      Pos exts ∧ exts ≠ [] ∧ ∀ j (hj : j < (bytes exts).length), off + j < size →
        P (off + j) (bytes exts)[j])
    {l : List (Option Ext)} (h : extents client dirty 0 size = .ok l) :
    ∃ exts : List Ext, l = exts.map some ∧ Shortest (exts.map Ext.run) ∧
      (bytes exts).length = size ∧ ∀ j (hj : j < (bytes exts).length), P j (bytes exts)[j] := by
  unfold extents at h
  split at h
  · simp at h
  next s hl =>
    simp only [Except.ok.injEq] at h
    subst h
    obtain ⟨g, ho, l, hb, hlen, hj⟩ := extentsLoop_spec P hP _ _ _ _
      (⟨.nil, fun _ => rfl⟩ : (⟨0, none, []⟩ : Loop).Good) (Nat.zero_le _) hl
    have hb' : bytes s.all = l := by simpa [Loop.all] using hb
    cases hc : s.cur with
    | none =>
      have h0 := g.start hc
      rw [← hb'] at hlen
      simp only [Loop.all, hc, h0, Option.toList_none, List.append_nil, bytes_nil,
        List.length_nil] at hlen
      omega
    | some c =>
      refine ⟨s.all, ?_, g.short, ?_, ?_⟩
      · simp [Loop.all, hc]
      · rw [hb', hlen]; simp
      · intro j hj2
        have := hj j (by rwa [hb'] at hj2)
        simp only [hb']
        simpa using this

/-- The loop ends if the server answers. -/
theorem extentsLoop_ok {client : Client} {dirty : Bool} {end_ : Nat}
    (hP : ∀ n off len, off < end_ → ∃ r exts, client n off len = .ok r ∧
      replyExtents dirty r = .ok exts ∧ Pos exts ∧ exts ≠ [])
    (fuel n : Nat) (s : Loop) (hg : s.Good) (hle : s.offset ≤ end_) (hf : end_ - s.offset ≤ fuel) :
    ∃ s', extentsLoop client dirty end_ fuel n s = .ok s' := by
  induction fuel generalizing n s with
  | zero =>
    unfold extentsLoop
    rw [if_neg (by omega)]
    exact ⟨s, rfl⟩
  | succ fuel ih =>
    unfold extentsLoop
    by_cases hlt : s.offset < end_
    · rw [if_pos hlt]
      obtain ⟨r, exts, hr, he, p1, p2⟩ := hP n s.offset (min (end_ - s.offset) maxStep) hlt
      simp only [hr, he]
      obtain ⟨a1, a2, _⟩ := addReply_spec hg p1 hlt
      have := bytes_length_pos p1 p2
      exact ih _ _ a1 (by omega) (by omega)
    · rw [if_neg hlt]
      exact ⟨s, rfl⟩

theorem zeroExtents_spec {exts : List Ext} (hp : Pos exts) (s : Nat) :
    ∃ zs, zeroExtents s (exts.map some) = .ok zs ∧
      Tiles s (zs.map fun z => (z.start, z.length)) (s + (bytes exts).length) ∧
      (∀ z ∈ zs, ∀ i, z.start ≤ i → i < z.start + z.length →
        ∃ h : i - s < (bytes exts).length, s ≤ i ∧
          z.zero = decide ((bytes exts)[i - s] &&& stateZero ≠ 0) ∧
          z.hole = some (decide ((bytes exts)[i - s] &&& extentBacking ≠ 0))) := by
  induction exts generalizing s with
  | nil => exact ⟨[], rfl, .nil _, by simp⟩
  | cons e es ih =>
    have he := hp e (by simp)
    obtain ⟨zs, h1, h2, h3⟩ := ih (fun x hx => hp x (by simp [hx])) (s + e.length)
    refine ⟨⟨s, e.length, e.zero, some e.hole⟩ :: zs, by simp [zeroExtents, h1], ?_, ?_⟩
    · simp only [List.map_cons, bytes_cons, List.length_append, List.length_replicate]
      rw [← Nat.add_assoc]
      exact .cons he h2
    · intro z hz i hi1 hi2
      rcases List.mem_cons.1 hz with rfl | hz
      · simp only at hi1 hi2
        have hl : i - s < (List.replicate e.length e.flags).length := by
          rw [List.length_replicate]; omega
        refine ⟨by simp; omega, hi1, ?_⟩
        simp only [bytes_cons, List.getElem_append_left hl, List.getElem_replicate, Ext.zero, Ext.hole,
          and_self]
      · obtain ⟨g1, g2, g3, g4⟩ := h3 z hz i hi1 hi2
        refine ⟨by simp; omega, by omega, ?_⟩
        have hr : (List.replicate e.length e.flags).length ≤ i - s := by
          rw [List.length_replicate]; omega
        have hi : i - s - (List.replicate e.length e.flags).length = i - (s + e.length) := by
          rw [List.length_replicate]; omega
        simp only [bytes_cons, List.getElem_append_right hr, hi]
        exact ⟨g3, g4⟩

theorem dirtyExtents_spec {exts : List Ext} (hp : Pos exts) (s : Nat) :
    ∃ zs, dirtyExtents s (exts.map some) = .ok zs ∧
      Tiles s (zs.map fun z => (z.start, z.length)) (s + (bytes exts).length) ∧
      (∀ z ∈ zs, ∀ i, z.start ≤ i → i < z.start + z.length →
        ∃ h : i - s < (bytes exts).length, s ≤ i ∧
          z.zero = decide ((bytes exts)[i - s] &&& stateZero ≠ 0) ∧
          z.dirty = decide ((bytes exts)[i - s] &&& extentDirty ≠ 0)) := by
  induction exts generalizing s with
  | nil => exact ⟨[], rfl, .nil _, by simp⟩
  | cons e es ih =>
    have he := hp e (by simp)
    obtain ⟨zs, h1, h2, h3⟩ := ih (fun x hx => hp x (by simp [hx])) (s + e.length)
    refine ⟨⟨s, e.length, e.dirty, e.zero⟩ :: zs, by simp [dirtyExtents, h1], ?_, ?_⟩
    · simp only [List.map_cons, bytes_cons, List.length_append, List.length_replicate]
      rw [← Nat.add_assoc]
      exact .cons he h2
    · intro z hz i hi1 hi2
      rcases List.mem_cons.1 hz with rfl | hz
      · simp only at hi1 hi2
        have hl : i - s < (List.replicate e.length e.flags).length := by
          rw [List.length_replicate]; omega
        refine ⟨by simp; omega, hi1, ?_⟩
        simp only [bytes_cons, List.getElem_append_left hl, List.getElem_replicate, Ext.zero, Ext.dirty,
          and_self]
      · obtain ⟨g1, g2, g3, g4⟩ := h3 z hz i hi1 hi2
        refine ⟨by simp; omega, by omega, ?_⟩
        have hr : (List.replicate e.length e.flags).length ≤ i - s := by
          rw [List.length_replicate]; omega
        have hi : i - s - (List.replicate e.length e.flags).length = i - (s + e.length) := by
          rw [List.length_replicate]; omega
        simp only [bytes_cons, List.getElem_append_right hr, hi]
        exact ⟨g3, g4⟩

theorem shortest_pos {exts : List Ext} (h : Shortest (exts.map Ext.run)) : Pos exts := by
  induction exts with
  | nil => intro e he; simp at he
  | cons e es ih =>
    intro x hx
    cases es with
    | nil =>
      simp only [List.map_cons, List.map_nil, Ext.run] at h
      cases h with
      | one h => simp only [List.mem_singleton] at hx; rw [hx]; exact h
    | cons b bs =>
      simp only [List.map_cons, Ext.run] at h ih
      cases h with
      | cons h hne hl =>
        rcases List.mem_cons.1 hx with rfl | hx
        · exact h
        · exact ih hl x hx

theorem run_injective {l l' : List Ext} (h : l.map Ext.run = l'.map Ext.run) : l = l' := by
  induction l generalizing l' with
  | nil => cases l' with
    | nil => rfl
    | cons => simp at h
  | cons a l ih => cases l' with
    | nil => simp at h
    | cons b l' =>
      obtain ⟨n, f⟩ := a
      obtain ⟨m, g⟩ := b
      simp only [List.map_cons, List.cons.injEq, Ext.run, Prod.mk.injEq] at h
      rw [ih h.2, h.1.1, h.1.2]

end Imageio.Extents
