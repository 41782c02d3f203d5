import Verif.Lemmas.HttpBackend
import Verif.Model.GoClient
import Verif.Spec.GoClient

/-!
Lemmas about the Go code.
-/
namespace Imageio.GoClient
open HttpBackend Http Images Spec Spec.Go Props

/-! ### Reading -/

theorem u64_nat {n : Nat} (h : n < 2 ^ 64) : u64 (n : Int) = n := by
  unfold u64
  omega

theorem goRange_eq (off len : Nat) (h : off + len < 2 ^ 63) : goRange off len = clientRange off len := by
  unfold goRange clientRange
  have : i64 ((off : Int) + len - 1) = (off : Int) + len - 1 := by
    unfold i64
    omega
  rw [this]
  rfl

theorem getRange_spec {σ : Type} {S : Server σ} (L : Lawful S.B) (hS : S.Proper) (off len : Nat)
    (hlen : 0 < len) (w : World σ) (hi : L.Inv w.srv)
    (hin : off + len ≤ min S.ticketSize (S.B.size w.srv)) (hmax : off + len < 2 ^ 63)
    {r : Except GoErr Bytes} {w' : World σ} (h : getRange S off len w = (r, w')) :
    (∀ body, r = .ok body → body <+: load (L.content w.srv) off len) ∧
    L.content w'.srv = L.content w.srv ∧ L.Inv w'.srv ∧ S.B.size w'.srv = S.B.size w.srv ∧
    (∀ e, r = .error e → e = .other) ∧
    (w.net.Good → ¬ L.MayFail off len → r = .ok (load (L.content w.srv) off len)) := by
  unfold getRange at h
  rw [goRange_eq off len hmax] at h
  cases hx : getRequest S (some (clientRange off len)) w with
  | mk r1 w1 =>
  obtain ⟨f1, f2, f3, f4⟩ := getRequest_frame L hS _ w hi hx
  have hwant : Wanted (min (S.ticketSize : Int) (S.B.size w.srv))
      (some (clientRange off len)) off len := clientRange_wanted hlen (by omega)
  obtain ⟨g1, g2⟩ := getRequest_spec L hS _ off len w hi hwant hx
  rw [hx] at h
  cases r1 with
  | error e =>
    cases h
    refine ⟨nofun, f3.content, f3.inv, f3.bsize, fun e he => by cases he; rfl, fun h1 h2 => ?_⟩
    have := g2 h1 (.inl hlen) h2
    cases this
  | ok resp =>
    simp only at h
    by_cases hs : resp.status = 206
    · rw [if_neg (by simpa using hs)] at h
      obtain ⟨h1, h2⟩ := g1 resp rfl (by rw [hs]; rfl)
      rw [if_neg (by rw [h1]; simp)] at h
      cases h
      refine ⟨fun b hb => by cases hb; exact h2, f3.content, f3.inv, f3.bsize, nofun,
        fun h1 h2 => ?_⟩
      have := g2 h1 (.inl hlen) h2
      cases this
      rfl
    · rw [if_pos hs] at h
      cases h
      refine ⟨nofun, f3.content, f3.inv, f3.bsize, fun e he => by cases he; rfl, fun h1 h2 => ?_⟩
      have := g2 h1 (.inl hlen) h2
      cases this
      exact absurd rfl hs

theorem sizeOf_cached {σ : Type} {S : Server σ} {b b' : Backend} {w : World σ} {n : Nat}
    (h : sizeOf S b w = (.ok n, b')) : b'.size = n := by
  unfold sizeOf at h
  split at h
  · split at h
    · cases h
    · split at h
      · cases h
      · cases h; rfl
  · cases h; rfl

theorem getRange_empty {σ : Type} {S : Server σ} (off : Nat) (w : World σ) (hmax : off < 2 ^ 63) :
    (getRange S off 0 w).1 = .error .other := by
  have hr : goRange (off : Int) 0 = clientRange off 0 := goRange_eq off 0 (by omega)
  have hfr := Net.conn_fresh w.net none []
  have hget : ∃ code c, code ≠ 206 ∧ c.started = false ∧ c.sent = [] ∧
      Images.get S.B (w.net.access S.ticketSize) ⟨S.ticketId, [], some (clientRange off 0)⟩ S.buf
        w.srv (w.net.conn none []) = (.error (.http code), w.srv, c) := by
    unfold Images.get
    split
    · exact ⟨400, _, by decide, hfr.started, hfr.sent, rfl⟩
    · simp only [C16_counterexample_empty_read off]
      exact ⟨416, _, by decide, hfr.started, hfr.sent, rfl⟩
  obtain ⟨code, c, hcode, h1, h2, hg⟩ := hget
  unfold getRange
  rw [hr]
  cases hx : getRequest S (some (clientRange off 0)) w with
  | mk r w1 =>
  unfold getRequest serve at hx
  simp only [hg] at hx
  cases r with
  | error e => rfl
  | ok resp =>
    have hx1 := congrArg Prod.fst hx
    obtain ⟨l, hl, _, _⟩ := Net.response_ok hx1
    simp only
    rw [if_pos]
    intro hs
    rcases finish_sent (lost := w.net.lost) (r := .error (.http code)) h1 h2 with h | h
    · rw [h] at hl; cases hl
    · rw [h, hs] at hl
      simp only [errorCode, List.cons.injEq] at hl
      exact hcode hl.1

theorem getRange_frame {σ : Type} {S : Server σ} (L : Lawful S.B) (hS : S.Proper) (off len : Int)
    (w : World σ) (hi : L.Inv w.srv) {r : Except GoErr Bytes} {w' : World σ}
    (h : getRange S off len w = (r, w')) :
    Unchanged L w.srv w'.srv ∧ (∀ e, r = .error e → e = .other) := by
  unfold getRange at h
  cases hx : getRequest S (some (goRange off len)) w with
  | mk r1 w1 =>
  obtain ⟨f1, f2, f3, f4⟩ := getRequest_frame L hS _ w hi hx
  rw [hx] at h
  cases r1 with
  | error e => cases h; exact ⟨f3, fun e he => by cases he; rfl⟩
  | ok resp =>
    simp only at h
    split at h
    · cases h; exact ⟨f3, fun e he => by cases he; rfl⟩
    · split at h
      · cases h; exact ⟨f3, fun e he => by cases he; rfl⟩
      · cases h; exact ⟨f3, nofun⟩

theorem tiles_last {start stop : Nat} {t : List (Nat × Nat)} (h : Tiles start stop t) :
    ∀ x, t.getLast? = some x → x.1 + x.2 = stop := by
  induction h with
  | nil => nofun
  | @cons start length stop t _ ht ih =>
    intro x hx
    cases ht with
    | nil => simp at hx; rw [← hx]
    | cons h1 h2 =>
      rw [List.getLast?_cons_cons] at hx
      exact ih x hx

/-- `ReadAt` after `Size`, in terms of `get`. -/
theorem readAt_inside {σ : Type} {S : Server σ} (b : Backend) (len off : Nat) (w : World σ)
    {size : Nat} {b' : Backend} (hb : sizeOf S b w = (.ok size, b'))
    (hoff : off < 2 ^ 63) (hlen : len < 2 ^ 63) (hsize : size < 2 ^ 63) (hin : off ≤ size) :
    readAt S b len off w =
      match getRange S off ((min len (size - off) : Nat) : Int) w with
      | (.error e, w) => (⟨0, some e, []⟩, b', w)
      | (.ok body, w) =>
        match readFull body (min len (size - off)) with
        | .error e => (⟨0, some e, body⟩, b', w)
        | .ok d => (⟨min len (size - off), if size < off + len then some .eof else none, d⟩, b', w) := by
  unfold readAt
  rw [hb]
  simp only
  have h1 : u64 (off : Int) = off := u64_nat (by omega)
  have h2 : u64 ((off : Int) + len) = off + len := by
    have := u64_nat (n := off + len) (by omega)
    rwa [Int.natCast_add] at this
  rw [h1, if_neg (by omega), h2]
  have h3 : u64 ((size : Int) - off) = size - off := by
    have := u64_nat (n := size - off) (by omega)
    rwa [Int.natCast_sub hin] at this
  rw [h3]
  have h4 : (if off + len > size then size - off else len) = min len (size - off) := by
    split <;> omega
  rw [h4]
  rfl

/-! ### Block status -/

theorem flagsOf_snoc (l f : Nat) : ∀ e : List Nat, e.length % 2 = 0 →
    flagsOf (e ++ [l, f]) = flagsOf e ++ List.replicate l f
  | [], _ => by simp [flagsOf]
  | [_], h => by simp at h
  | a :: b :: t, h => by
    have := flagsOf_snoc l f t (by simp only [List.length_cons] at h; omega)
    simp only [List.cons_append, flagsOf, this, List.append_assoc]

theorem range_flags (st : Nat → Nat) (offset length f : Nat)
    (h : ∀ i, offset ≤ i → i < offset + length → st i = f) :
    (List.range (offset + length)).map st = (List.range offset).map st ++ List.replicate length f := by
  rw [List.range_add, List.map_append]
  congr 1
  rw [List.map_map]
  apply List.eq_replicate_iff.2
  refine ⟨by simp, fun b hb => ?_⟩
  obtain ⟨i, hi, rfl⟩ := List.mem_map.1 hb
  have := List.mem_range.1 hi
  exact h (offset + i) (by omega) (by omega)

/-- The entries collected so far describe the image up to `offset`. -/
structure Sofar (st : Nat → Nat) (size offset : Nat) (acc : List Nat) : Prop where
  even : acc.length % 2 = 0
  flags : flagsOf acc = (List.range offset).map st
  le : offset ≤ size
  pos : ∀ pre l f post, acc = pre ++ l :: f :: post → pre.length % 2 = 0 → 0 < l

theorem Sofar.snoc {st : Nat → Nat} {size offset l f : Nat} {acc : List Nat}
    (h : Sofar st size offset acc) (hl : 0 < l) (hle : offset + l ≤ size)
    (hf : ∀ i, offset ≤ i → i < offset + l → st i = f) :
    Sofar st size (offset + l) (acc ++ [l, f]) := by
  refine ⟨by
    have := h.even
    simp only [List.length_append, List.length_cons, List.length_nil]; omega, ?_, hle, ?_⟩
  · rw [flagsOf_snoc _ _ _ h.even, h.flags, range_flags st offset l f hf]
  · intro pre a b post he hp
    have hlen := congrArg List.length he
    simp only [List.length_append, List.length_cons, List.length_nil] at hlen
    have hev := h.even
    by_cases hpost : post = []
    · subst hpost
      have := List.append_inj_right he (by simp only [List.length_nil] at hlen; omega)
      simp only [List.cons.injEq] at this
      omega
    · have hpos := List.length_pos_iff.2 hpost
      have h2 : post.length % 2 = 0 := by omega
      obtain ⟨post', x, y, rfl⟩ : ∃ post' x y, post = post' ++ [x, y] := by
        have h3 := List.dropLast_concat_getLast hpost
        have hne : post.dropLast ≠ [] := by
          intro hz
          have := congrArg List.length hz
          simp only [List.length_dropLast, List.length_nil] at this
          omega
        have h4 := List.dropLast_concat_getLast hne
        refine ⟨post.dropLast.dropLast, post.dropLast.getLast hne, post.getLast hpost, ?_⟩
        conv => lhs; rw [← h3, ← h4]
        simp
      have he2 : acc ++ [l, f] = (pre ++ a :: b :: post') ++ [x, y] := by
        rw [he]; simp
      have := List.append_inj_left he2 (by
        simp only [List.length_append, List.length_cons, List.length_nil] at hlen ⊢; omega)
      exact h.pos pre a b post' this hp

theorem collect_spec {st : Nat → Nat} {size offset : Nat} {e : List Nat} (h : Says st size offset e) :
    ∀ {o : Nat} {acc : List Nat}, (o = offset ∨ size ≤ o) → Sofar st size o acc →
    ∃ o' acc', collect size e o acc = some (o', acc') ∧ o ≤ o' ∧ Sofar st size o' acc' ∧
      (o < size → e ≠ [] → o < o') := by
  induction h with
  | nil =>
    intro o acc _ hs
    exact ⟨o, acc, rfl, Nat.le_refl _, hs, fun _ h => absurd rfl h⟩
  | cons hl hf _ ih =>
    rename_i off l f t _
    intro o acc ho hs
    unfold collect
    by_cases hlt : o < size
    · rw [if_pos hlt]
      have ho : o = off := by omega
      subst ho
      have hs' : Sofar st size (o + min (size - o) l) (acc ++ [min (size - o) l, f]) :=
        hs.snoc (by omega) (by omega) (fun i h1 h2 => hf i h1 (by omega) (by omega))
      obtain ⟨o', acc', h1, h2, h3, -⟩ := ih (by omega) hs'
      exact ⟨o', acc', h1, by omega, h3, fun _ _ => by omega⟩
    · rw [if_neg hlt]
      exact ⟨o, acc, rfl, Nat.le_refl _, hs, fun h => absurd h hlt⟩

/-- A server that tells the truth. -/
def Truthful (st : Nat → Nat) (size : Nat) (f : Nat → Nat → Reply) : Prop :=
  ∀ off len e, off < size → f off len = .entries e → Says st size off e

theorem extentsLoop_spec {st : Nat → Nat} {size : Nat} (replies : Replies) :
    ∀ {offset : Nat} {acc : List Nat}, (∀ f ∈ replies, Truthful st size f) →
    Sofar st size offset acc →
    extentsLoop size replies offset acc ≠ .panic ∧
    (∀ r, extentsLoop size replies offset acc = .done r → Sofar st size size r) ∧
    ((∀ f ∈ replies, ∀ off len, off < size → ∃ e, f off len = .entries e ∧ e ≠ []) →
      size ≤ offset + replies.length → ∃ r, extentsLoop size replies offset acc = .done r) ∧
    (extentsLoop size replies offset acc = .error →
      ∃ f ∈ replies, ∃ off len, f off len = .error) := by
  induction replies with
  | nil =>
    intro offset acc _ hs
    unfold extentsLoop
    by_cases hlt : offset < size
    · rw [if_pos hlt]
      refine ⟨nofun, nofun, fun _ h => ?_, nofun⟩
      simp only [List.length_nil] at h
      omega
    · rw [if_neg hlt]
      refine ⟨nofun, fun r hr => ?_, fun _ _ => ⟨acc, rfl⟩, nofun⟩
      cases hr
      rw [show offset = size by have := hs.le; omega] at hs
      exact hs
  | cons f t ih =>
    intro offset acc htr hs
    unfold extentsLoop
    by_cases hlt : offset < size
    · rw [if_pos hlt]
      simp only
      cases hf : f offset (min (size - offset) maxExtent) with
      | error =>
        refine ⟨nofun, nofun, fun hall _ => ?_, fun _ => ⟨f, List.mem_cons_self, _, _, hf⟩⟩
        obtain ⟨e, he, -⟩ := hall f List.mem_cons_self offset (min (size - offset) maxExtent) hlt
        rw [hf] at he; cases he
      | eintr =>
        obtain ⟨h1, h2, h3, h4⟩ := ih (fun f hf => htr f (List.mem_cons_of_mem _ hf)) hs
        refine ⟨h1, h2, fun hall _ => ?_, fun h => ?_⟩
        · obtain ⟨e, he, -⟩ := hall f List.mem_cons_self offset (min (size - offset) maxExtent) hlt
          rw [hf] at he; cases he
        · obtain ⟨g, hg, h⟩ := h4 h
          exact ⟨g, List.mem_cons_of_mem _ hg, h⟩
      | entries e =>
        have hsays := htr f List.mem_cons_self _ _ _ hlt hf
        obtain ⟨o', acc', hc, hle, hs', hadv⟩ := collect_spec hsays (.inl rfl) hs
        simp only
        rw [hc]
        obtain ⟨h1, h2, h3, h4⟩ := ih (fun f hf => htr f (List.mem_cons_of_mem _ hf)) hs'
        refine ⟨h1, h2, fun hall hsz => h3 (fun g hg => hall g (List.mem_cons_of_mem _ hg)) ?_,
          fun h => ?_⟩
        · obtain ⟨e', he, hne⟩ := hall f List.mem_cons_self offset
            (min (size - offset) maxExtent) hlt
          rw [hf] at he
          cases he
          have := hadv hlt hne
          simp only [List.length_cons] at hsz
          omega
        · obtain ⟨g, hg, h⟩ := h4 h
          exact ⟨g, List.mem_cons_of_mem _ hg, h⟩
    · rw [if_neg hlt]
      refine ⟨nofun, fun r hr => ?_, fun _ _ => ⟨acc, rfl⟩, nofun⟩
      cases hr
      rw [show offset = size by have := hs.le; omega] at hs
      exact hs

/-- The requests are inside the image, and not too large: other requests are never sent. -/
theorem extentsLoop_congr {size : Nat} : ∀ (fs gs : Replies),
    List.Forall₂ (fun f g => ∀ off len, 0 < len → len ≤ 2 ^ 30 → off + len ≤ size →
      f off len = g off len) fs gs → ∀ (offset : Nat) (acc : List Nat),
    extentsLoop size fs offset acc = extentsLoop size gs offset acc := by
  intro fs gs h
  induction h with
  | nil => intro _ _; rfl
  | cons h _ ih =>
    intro offset acc
    unfold extentsLoop
    by_cases hlt : offset < size
    · rw [if_pos hlt, if_pos hlt]
      simp only
      rw [h offset (min (size - offset) maxExtent) (by unfold maxExtent; omega)
        (by unfold maxExtent; omega) (by omega)]
      simp only [ih]
    · rw [if_neg hlt, if_neg hlt]

/-! ### Extents -/

theorem mergeNext_spec (f : Nat) : ∀ (l : Nat) (t : List Nat), t.length % 2 = 0 →
    ∀ m rest, mergeNext f l t = (m, rest) →
    flagsOf (l :: f :: t) = List.replicate m f ++ flagsOf rest ∧ rest.length % 2 = 0 ∧ l ≤ m ∧
    (∀ a b r, rest = a :: b :: r → b ≠ f) ∧ ∃ p, t = p ++ rest ∧ p.length % 2 = 0
  | l, [], _, m, rest, h => by
    cases h
    exact ⟨rfl, rfl, Nat.le_refl _, nofun, [], rfl, rfl⟩
  | _, [_], h, _, _, _ => by simp at h
  | l, a :: b :: t, he, m, rest, h => by
    unfold mergeNext at h
    by_cases hf : f = b
    · rw [if_pos hf] at h
      subst hf
      have het : t.length % 2 = 0 := by simp only [List.length_cons] at he; omega
      obtain ⟨h1, h2, h3, h4, p, h5, h6⟩ := mergeNext_spec f (l + a) t het m rest h
      refine ⟨?_, h2, by omega, h4, a :: f :: p, by rw [h5]; rfl, by
        simp only [List.length_cons]; omega⟩
      rw [← h1]
      simp only [flagsOf, ← List.append_assoc, List.replicate_append_replicate]
    · rw [if_neg hf] at h
      cases h
      refine ⟨rfl, he, Nat.le_refl _, ?_, [], rfl, rfl⟩
      intro x y r hr
      cases hr
      exact fun h => hf h.symm

/-- No empty entries. -/
def Positive (e : List Nat) : Prop :=
  ∀ pre l f post, e = pre ++ l :: f :: post → pre.length % 2 = 0 → 0 < l

theorem values_spec (st : Nat → Nat) : ∀ (n : Nat) (e : List Nat) (start : Nat), e.length = n →
    e.length % 2 = 0 → Positive e →
    (∀ i (h : i < (flagsOf e).length), (flagsOf e)[i] = st (start + i)) →
    (values start e).flatMap (fun x => List.replicate x.length x.zero) =
      (flagsOf e).map (fun f => f &&& 2 == 2) ∧
    (∀ pre x post, values start e = pre ++ x :: post →
      x.start = start + (pre.map (·.length)).sum ∧ 0 < x.length) ∧
    (∀ pre x y post, values start e = pre ++ x :: y :: post →
      st (y.start - 1) ≠ st y.start) := by
  intro n
  induction n using Nat.strongRecOn with
  | ind n ih =>
  intro e start hn heven hpos hst
  match e, hn, heven, hpos, hst with
  | [], _, _, _, _ =>
    unfold values
    refine ⟨rfl, ?_, ?_⟩ <;> intro pre <;> simp
  | [_], _, h, _, _ => simp at h
  | l :: f :: t, hn, heven, hpos, hst =>
    have het : t.length % 2 = 0 := by simp only [List.length_cons] at heven; omega
    unfold values
    cases hm : mergeNext f l t with
    | mk m rest =>
    obtain ⟨h1, h2, h3, h4, p, h5, h6⟩ := mergeNext_spec f l t het m rest hm
    have hl : 0 < l := hpos [] l f t rfl rfl
    have hlen : rest.length < n := by
      rw [← hn, h5]
      simp only [List.length_cons, List.length_append]
      omega
    have hposr : Positive rest := by
      intro pre a b post he hp
      refine hpos (l :: f :: (p ++ pre)) a b post ?_ ?_
      · rw [h5, he]; simp
      · simp only [List.length_cons, List.length_append]; omega
    rw [h1] at hst
    have hstr : ∀ i (h : i < (flagsOf rest).length), (flagsOf rest)[i] = st (start + m + i) := by
      intro i hi
      have := hst (m + i) (by simp only [List.length_append, List.length_replicate]; omega)
      rw [List.getElem_append_right (by simp)] at this
      simp only [List.length_replicate, Nat.add_sub_cancel_left] at this
      rw [this, Nat.add_assoc]
    have hfirst : ∀ i, i < m → st (start + i) = f := by
      intro i hi
      have := hst i (by simp only [List.length_append, List.length_replicate]; omega)
      rw [List.getElem_append_left (by simpa using hi)] at this
      rw [← this]
      simp
    obtain ⟨a1, a2, a3⟩ := ih rest.length hlen rest (start + m) rfl h2 hposr hstr
    simp only
    refine ⟨?_, ?_, ?_⟩
    · rw [List.flatMap_cons, a1, h1, List.map_append]
      simp
    · intro pre x post he
      cases pre with
      | nil =>
        simp only [List.nil_append, List.cons.injEq] at he
        rw [← he.1]
        exact ⟨rfl, by simp only; omega⟩
      | cons z pre =>
        simp only [List.cons_append, List.cons.injEq] at he
        obtain ⟨b1, b2⟩ := a2 pre x post he.2
        refine ⟨?_, b2⟩
        rw [b1, ← he.1]
        simp only [List.map_cons, List.sum_cons]
        omega
    · intro pre x y post he
      cases pre with
      | cons z pre =>
        simp only [List.cons_append, List.cons.injEq] at he
        exact a3 pre x y post he.2
      | nil =>
        simp only [List.nil_append, List.cons.injEq] at he
        obtain ⟨-, he⟩ := he
        obtain ⟨b1, -⟩ := a2 [] y post he
        simp only [List.map_nil, List.sum_nil, Nat.add_zero] at b1
        rw [b1]
        rw [show start + m - 1 = start + (m - 1) by omega, hfirst (m - 1) (by omega)]
        match rest, h2, h4, he, hposr, hstr with
        | [], _, _, he, _, _ => unfold values at he; cases he
        | [_], h, _, _, _, _ => simp at h
        | a :: b :: r, _, h4, _, hposr, hstr =>
          have ha : 0 < a := hposr [] a b r rfl rfl
          have := hstr 0 (by simp only [flagsOf, List.length_append, List.length_replicate]; omega)
          simp only [flagsOf, Nat.add_zero] at this
          rw [List.getElem_append_left (by simpa using ha)] at this
          simp only [List.getElem_replicate] at this
          rw [← this]
          exact (h4 a b r rfl).symm

/-! ### JSON -/

theorem digitChar_zero : ∀ n, n < 10 → Nat.digitChar n = '0' → n = 0 := by decide

theorem fmtNat_head (n : Nat) : (fmtNat n).head? = some '0' → n = 0 := by
  induction n using Nat.strongRecOn with
  | ind n ih =>
  unfold fmtNat
  by_cases h : n < 10
  · rw [Nat.toDigits_of_lt_base h]
    simp only [List.head?_cons, Option.some.injEq]
    exact digitChar_zero n h
  · rw [Nat.toDigits_of_base_le (by decide) (by omega)]
    intro hh
    have := ih (n / 10) (by omega) (by
      unfold fmtNat
      cases hx : Nat.toDigits 10 (n / 10) with
      | nil => exact absurd hx Nat.toDigits_ne_nil
      | cons c cs => rw [hx] at hh; exact hh)
    omega

theorem jsonNat_fmt (n : Nat) : JsonNat (fmtNat n) n := by
  refine ⟨number_fmtNat n, fun h => ?_⟩
  rw [fmtNat_head n h]
  decide +kernel

/-- The value of an extent. -/
def valueOf (e : Extent) : Value :=
  .obj [("start".toList, .num e.start), ("length".toList, .num e.length),
    ("zero".toList, .bool e.zero)]

theorem space_nil : Space [] := nofun
theorem space_one : Space [' '] := fun c hc => .inl (by simpa using hc)

theorem text_bool (b : Bool) : Text (fmtBool b) (.bool b) := by
  cases b
  · exact .false
  · exact .true

theorem text_extent (e : Extent) : Text (formatExtent e) (valueOf e) := by
  have h3 : Members (' ' :: '"' :: "zero".toList ++ '"' :: ':' :: ' ' :: fmtBool e.zero)
      [("zero".toList, .bool e.zero)] := by
    have := Members.one (a := [' ']) (b := []) (c := [' ']) (d := []) (k := "zero".toList)
      space_one (by intro c hc; revert c hc; decide) space_nil space_one (text_bool e.zero) space_nil
    simpa using this
  have h2 : Members (' ' :: '"' :: "length".toList ++ '"' :: ':' :: ' ' :: fmtNat e.length ++
      ',' :: (' ' :: '"' :: "zero".toList ++ '"' :: ':' :: ' ' :: fmtBool e.zero))
      [("length".toList, .num e.length), ("zero".toList, .bool e.zero)] := by
    have := Members.cons (a := [' ']) (b := []) (c := [' ']) (d := []) (k := "length".toList)
      space_one (by intro c hc; revert c hc; decide) space_nil space_one
      (.num (jsonNat_fmt e.length)) space_nil h3
    simpa using this
  have h1 := Members.cons (a := []) (b := []) (c := [' ']) (d := []) (k := "start".toList)
      space_nil (by intro c hc; revert c hc; decide) space_nil space_one
      (.num (jsonNat_fmt e.start)) space_nil h2
  have := Text.obj h1
  unfold formatExtent valueOf
  simpa using this

theorem writeLoop_next : ∀ (exts : List Extent), exts ≠ [] →
    ∃ t, writeLoop ",\n ".toList false exts = ',' :: t ∧ Items t (exts.map valueOf)
  | [], h => absurd rfl h
  | [e], _ => by
    refine ⟨'\n' :: ' ' :: formatExtent e, by simp [writeLoop], ?_⟩
    have := Items.one (a := ['\n', ' ']) (b := []) (by
      intro c hc
      simp only [List.mem_cons, List.not_mem_nil, or_false] at hc
      rcases hc with rfl | rfl
      · exact .inr (.inr (.inl rfl))
      · exact .inl rfl) (text_extent e) space_nil
    simpa using this
  | e :: e' :: t, _ => by
    obtain ⟨s, h1, h2⟩ := writeLoop_next (e' :: t) (by simp)
    refine ⟨'\n' :: ' ' :: formatExtent e ++ ',' :: s, ?_, ?_⟩
    · rw [writeLoop, if_neg (by simp), h1]; simp
    · have := Items.cons (a := ['\n', ' ']) (b := []) (by
        intro c hc
        simp only [List.mem_cons, List.not_mem_nil, or_false] at hc
        rcases hc with rfl | rfl
        · exact .inr (.inr (.inl rfl))
        · exact .inl rfl) (text_extent e) space_nil h2
      simpa using this

theorem text_extents (exts : List Extent) : Document (writeExtents exts) (.arr (exts.map valueOf)) := by
  refine ⟨[], '[' :: writeLoop [] true exts ++ [']'], ['\n'], space_nil, ?_, ?_, ?_⟩
  · cases exts with
    | nil => exact .empty space_nil
    | cons e t =>
      refine .arr ?_
      cases t with
      | nil =>
        have := Items.one (a := []) (b := []) space_nil (text_extent e) space_nil
        simpa [writeLoop] using this
      | cons e' t =>
        obtain ⟨s, h1, h2⟩ := writeLoop_next (e' :: t) (by simp)
        have := Items.cons (a := []) (b := []) space_nil (text_extent e) space_nil h2
        rw [writeLoop, if_pos rfl, List.append_nil, h1]
        simpa using this
  · intro c hc
    simp only [List.mem_singleton] at hc
    exact .inr (.inr (.inl hc))
  · simp [writeExtents]

end Imageio.GoClient
