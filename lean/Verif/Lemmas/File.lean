import Verif.Lemmas.Memory
import Verif.Lemmas.OpsZero
import Verif.Model.File
namespace Imageio.File
open Imageio.Spec Imageio.Memory Imageio.Ops

theorem sys_cases {α : Type} {s : State} {f : State → Res State α} {r : Except Err α} {s' : State}
    (h : sys s f = (r, s')) :
    (∃ e fs, s.faults = some e :: fs ∧ r = .error (.os e) ∧ s' = { s with faults := fs }) ∨
    (∃ fs, (s.faults = [] → fs = []) ∧ f { s with faults := fs } = (r, s')) := by
  unfold sys at h
  cases hf : s.faults with
  | nil =>
    rw [hf] at h
    right
    refine ⟨[], fun _ => rfl, ?_⟩
    have : ({ s with faults := [] } : State) = s := by cases s; simp_all
    rw [this]; exact h
  | cons x fs =>
    rw [hf] at h
    cases x with
    | none => right; exact ⟨fs, by simp, h⟩
    | some e => left; simp only at h; cases h; exact ⟨e, fs, rfl, rfl, rfl⟩

/-- `s'` has the same storage as `s`, and no new faults. -/
structure Same (s s' : State) : Prop where
  data : s'.data = s.data
  disk : s'.disk = s.disk
  faults : s.faults = [] → s'.faults = []

theorem Same.refl (s : State) : Same s s := ⟨rfl, rfl, id⟩

theorem shortRead_spec {env : Env} (hb : 0 < env.bs) (s : State) (avail : Nat) :
    shortRead env s avail ≤ avail ∧
      (shortRead env s avail = avail ∨ (shortRead env s avail % env.bs = 0 ∧ env.bs ≤ shortRead env s avail)) := by
  unfold shortRead
  split
  · exact ⟨Nat.le_refl _, .inl rfl⟩
  · rename_i r _ _
    refine ⟨Nat.min_le_left _ _, ?_⟩
    by_cases hm : avail ≤ (r + 1) * env.bs
    · left; exact Nat.min_eq_left hm
    · right
      rw [Nat.min_eq_right (by omega)]
      refine ⟨Nat.mul_mod_left _ _, ?_⟩
      rw [Nat.add_mul]; omega

theorem shortWrite_spec {env : Env} (s : State) (len avail : Nat) (h : 0 < avail) :
    0 < shortWrite env s len avail ∧ shortWrite env s len avail ≤ avail ∧
      (len ≤ env.bs → shortWrite env s len avail = avail) := by
  unfold shortWrite
  split
  · exact ⟨h, Nat.le_refl _, fun _ => rfl⟩
  · by_cases hle : len ≤ env.bs
    · rw [if_pos hle]; exact ⟨h, Nat.le_refl _, fun _ => rfl⟩
    · rw [if_neg hle]; exact ⟨by omega, by omega, fun h => absurd h hle⟩

theorem fioReadinto_ok {env : Env} {s s' : State} {len : Nat} {d : Bytes} (hb : 0 < env.bs)
    (h : fioReadinto env s len = (.ok d, s')) :
    Same s s' ∧ s.pos % env.bs = 0 ∧ len % env.bs = 0 ∧ d = load (byteAt s.data) s.pos d.length ∧
      s'.pos = s.pos + d.length ∧ d.length ≤ min len (s.data.length - s.pos) ∧
      (d.length = min len (s.data.length - s.pos) ∨ (d.length % env.bs = 0 ∧ env.bs ≤ d.length)) := by
  rcases sys_cases h with ⟨e, fs, _, h2, _⟩ | ⟨fs, hfs, h⟩
  · cases h2
  · simp only at h
    split at h
    · cases h
    · rename_i hal
      have hal' : s.pos % env.bs = 0 ∧ len % env.bs = 0 := by omega
      injection h with h1 h2
      injection h1 with h1
      subst h1 h2
      have hn := shortRead_spec (env := env) hb { s with faults := fs } (min len (s.data.length - s.pos))
      generalize shortRead env { s with faults := fs } (min len (s.data.length - s.pos)) = n at *
      have hn1 := hn.1
      by_cases hn0 : s.data.length < s.pos
      · have hz : n = 0 := by omega
        subst hz
        refine ⟨⟨rfl, rfl, hfs⟩, hal'.1, hal'.2, by simp, by simp, by simp, .inl (by simp; omega)⟩
      have hl := length_drop_take s.data s.pos n (by omega)
      simp only [hl]
      refine ⟨⟨rfl, rfl, hfs⟩, hal'.1, hal'.2, load_byteAt _ _ _ (by omega), trivial, hn1, ?_⟩
      rcases hn.2 with h | h
      · left; exact h
      · right; exact h

theorem fioReadinto_err {env : Env} {s s' : State} {len : Nat} {e : Err}
    (h : fioReadinto env s len = (.error e, s')) :
    Same s s' ∧ External e ∧ (s.faults ≠ [] ∨ s.pos % env.bs ≠ 0 ∨ len % env.bs ≠ 0) := by
  rcases sys_cases h with ⟨e', fs, h1, h2, h3⟩ | ⟨fs, hfs, h⟩
  · cases h2
    subst h3
    exact ⟨⟨rfl, rfl, by simp [h1]⟩, trivial, .inl (by simp [h1])⟩
  · simp only at h
    split at h
    · rename_i hal
      cases h
      exact ⟨⟨rfl, rfl, hfs⟩, trivial, .inr hal⟩
    · cases h

/-- `s'` is `s` after `d` was stored at `off`. -/
structure Wrote (env : Env) (s s' : State) (off : Nat) (d : Bytes) : Prop where
  data : byteAt s'.data = store (byteAt s.data) off d
  length : s'.data.length = max s.data.length (off + d.length)
  block : env.isBlock = true → off + d.length ≤ s.data.length
  faults : s.faults = [] → s'.faults = []

theorem fioWrite_ok {env : Env} {s s' : State} {a : Nat} {d : Bytes} {n : Nat}
    (hinv : env.isBlock = true → s.data.length % env.bs = 0) (hd : d ≠ [])
    (h : fioWrite env s a d = (.ok n, s')) :
    s.pos % env.bs = 0 ∧ d.length % env.bs = 0 ∧ a % env.bs = 0 ∧ 0 < n ∧ n ≤ d.length ∧
      s'.pos = s.pos + n ∧ s'.disk = s.disk ∧ Wrote env s s' s.pos (d.take n) ∧ (d.length ≤ env.bs → n = d.length) := by
  have hdl : 0 < d.length := List.length_pos_iff.mpr hd
  rcases sys_cases h with ⟨e, fs, _, h2, _⟩ | ⟨fs, hfs, h⟩
  · cases h2
  · simp only at h
    split at h
    · cases h
    · rename_i hal
      split at h
      · cases h
      · rename_i hnospc
        have hal' : s.pos % env.bs = 0 ∧ d.length % env.bs = 0 ∧ a % env.bs = 0 := by omega
        injection h with h1 h2
        injection h1 with h1
        subst h2
        generalize hav : (if env.isBlock = true then min d.length (s.data.length - s.pos) else d.length) = avail at *
        have hav1 : 0 < avail ∧ avail ≤ d.length ∧ (env.isBlock = true → s.pos + avail ≤ s.data.length) := by
          rw [← hav]
          by_cases hblk : env.isBlock = true
          · rw [if_pos hblk]
            have : s.pos < s.data.length := by
              rcases Nat.lt_or_ge s.pos s.data.length with h | h
              · exact h
              · exact absurd ⟨hblk, h⟩ hnospc
            exact ⟨by omega, by omega, fun _ => by omega⟩
          · rw [if_neg hblk]; exact ⟨hdl, Nat.le_refl _, fun h => absurd h hblk⟩
        have hav2 : d.length ≤ env.bs → avail = d.length := by
          intro hle
          rw [← hav]
          by_cases hblk : env.isBlock = true
          · rw [if_pos hblk]
            have hlt : s.pos < s.data.length := by
              rcases Nat.lt_or_ge s.pos s.data.length with h | h
              · exact h
              · exact absurd ⟨hblk, h⟩ hnospc
            have hm := hinv hblk
            have hde : d.length = env.bs := by
              have := Nat.le_of_dvd hdl (Nat.dvd_of_mod_eq_zero hal'.2.1)
              omega
            have : env.bs ∣ s.data.length - s.pos :=
              Nat.dvd_sub (Nat.dvd_of_mod_eq_zero hm) (Nat.dvd_of_mod_eq_zero hal'.1)
            have := Nat.le_of_dvd (by omega) this
            omega
          · rw [if_neg hblk]
        have hn : 0 < n ∧ n ≤ avail ∧ (d.length ≤ env.bs → n = avail) := by
          rw [← h1]
          exact shortWrite_spec _ _ _ hav1.1
        rw [h1]
        have htl : (d.take n).length = n := by rw [List.length_take]; omega
        refine ⟨hal'.1, hal'.2.1, hal'.2.2, hn.1, by omega, rfl, rfl, ⟨?_, ?_, ?_, hfs⟩, fun h => ?_⟩
        · simp only; rw [if_neg (by omega), byteAt_writeAt]
        · simp only; rw [if_neg (by omega), length_writeAt]
        · intro hblk; rw [htl]; have := hav1.2.2 hblk; omega
        · rw [hn.2.2 h, hav2 h]

theorem fioWrite_err {env : Env} {s s' : State} {a : Nat} {d : Bytes} {e : Err}
    (h : fioWrite env s a d = (.error e, s')) :
    Same s s' ∧ External e ∧ (s.faults ≠ [] ∨ s.pos % env.bs ≠ 0 ∨ d.length % env.bs ≠ 0 ∨ a % env.bs ≠ 0 ∨
      (env.isBlock = true ∧ s.data.length ≤ s.pos)) := by
  rcases sys_cases h with ⟨e', fs, h1, h2, h3⟩ | ⟨fs, hfs, h⟩
  · cases h2
    subst h3
    exact ⟨⟨rfl, rfl, by simp [h1]⟩, trivial, .inl (by simp [h1])⟩
  · simp only at h
    split at h
    · rename_i hal
      cases h
      exact ⟨⟨rfl, rfl, hfs⟩, trivial, .inr (by omega)⟩
    · split at h
      · rename_i hn
        cases h
        exact ⟨⟨rfl, rfl, hfs⟩, trivial, .inr (.inr (.inr (.inr hn)))⟩
      · cases h

/-- The block written by a read-modify-write. -/
theorem rmw_block (c : Nat → Byte) (b bs offset : Nat) (d : Bytes) (h : offset + d.length ≤ bs) :
    store c b ((load c b bs).take offset ++ d ++ (load c b bs).drop (offset + d.length)) = store c (b + offset) d := by
  rw [load_take, load_drop, Nat.min_eq_left (by omega)]
  funext i
  have hlen : (load c b offset ++ d ++ load c (b + (offset + d.length)) (bs - (offset + d.length))).length = bs := by
    simp; omega
  by_cases hi : b ≤ i ∧ i < b + bs
  · rw [store_inside _ _ _ _ hi.1 (by omega)]
    by_cases h1 : i - b < offset
    · rw [store_outside _ _ _ _ (by omega)]
      simp only [List.append_assoc]
      rw [List.getElem_append_left (by simpa using h1), load_getElem]
      congr 1; omega
    · by_cases h2 : i - b < offset + d.length
      · rw [store_inside _ _ _ _ (by omega) (by omega)]
        rw [List.getElem_append_left (by simp; omega), List.getElem_append_right (by simp; omega)]
        congr 1; simp; omega
      · rw [store_outside _ _ _ _ (by omega)]
        rw [List.getElem_append_right (by simp; omega), load_getElem]
        congr 1; simp; omega
  · rw [store_outside _ _ _ _ (by omega), store_outside _ _ _ _ (by omega)]

theorem load_beyond (f : Bytes) (p n : Nat) (h : f.length ≤ p) : load (byteAt f) p n = zeros n := by
  apply List.ext_getElem
  · simp
  · intro i h1 h2
    rw [load_getElem, byteAt_beyond _ _ (by omega)]
    simp [zeros]

theorem block_read (f : Bytes) (b bs n : Nat) (h : n = min bs (f.length - b)) :
    load (byteAt f) b n ++ zeros (bs - n) = load (byteAt f) b bs := by
  by_cases hb : f.length ≤ b
  · rw [load_beyond _ _ _ hb, load_beyond _ _ _ hb, zeros_append]
    congr 1; omega
  · by_cases hfull : bs ≤ f.length - b
    · rw [show n = bs by omega]; simp [zeros]
    · have hn : b + n = f.length := by omega
      rw [← load_beyond f (b + n) (bs - n) (by omega), load_append]
      congr 1; omega

theorem writeUnaligned_ok {env : Env} {s s' : State} {buf : Bytes} {n : Nat} (hb : 0 < env.bs)
    (hinv : env.isBlock = true → s.data.length % env.bs = 0) (hd : buf ≠ [])
    (h : writeUnaligned env s buf = (.ok n, s')) :
    n = min buf.length (env.bs - s.pos % env.bs) ∧ s'.pos = s.pos + n ∧ s'.disk = s.disk ∧
      byteAt s'.data = store (byteAt s.data) s.pos (buf.take n) ∧
      s'.data.length = max s.data.length (s.pos - s.pos % env.bs + env.bs) ∧
      (env.isBlock = true → s'.data.length = s.data.length) ∧ (s.faults = [] → s'.faults = []) := by
  have hml := Nat.mod_lt s.pos hb
  have hdl : 0 < buf.length := List.length_pos_iff.mpr hd
  unfold writeUnaligned at h
  simp only [seek, andThen, readinto] at h
  cases hr : fioReadinto env { s with pos := s.pos - s.pos % env.bs } env.bs with
  | mk r s1 =>
    rw [hr] at h
    cases r with
    | error e => simp only at h; cases h
    | ok got =>
      simp only at h
      obtain ⟨r1, r2, r3, r4, r5, r6, r7⟩ := fioReadinto_ok hb hr
      simp only at r1 r2 r3 r4 r5 r6 r7
      have hgl : got.length = min env.bs (s.data.length - (s.pos - s.pos % env.bs)) := by
        rcases r7 with h | h
        · exact h
        · omega
      have hblk : got ++ zeros (env.bs - got.length) = load (byteAt s.data) (s.pos - s.pos % env.bs) env.bs := by
        rw [r4]
        have : (load (byteAt s.data) (s.pos - s.pos % env.bs) got.length).length = got.length := by simp
        rw [this]
        exact block_read _ _ _ _ hgl
      rw [hblk] at h
      generalize hc : min buf.length (env.bs - s.pos % env.bs) = count at *
      have htl : (buf.take count).length = count := by rw [List.length_take]; omega
      generalize hbk : (load (byteAt s.data) (s.pos - s.pos % env.bs) env.bs).take (s.pos % env.bs) ++
          buf.take count ++ (load (byteAt s.data) (s.pos - s.pos % env.bs) env.bs).drop (s.pos % env.bs + count) = block at *
      have hbl : block.length = env.bs := by
        rw [← hbk]; simp; omega
      cases hw : fioWrite env { s1 with pos := s.pos - s.pos % env.bs } 0 block with
      | mk r2 s2 =>
        rw [hw] at h
        cases r2 with
        | error e => simp only at h; cases h
        | ok m =>
          simp only at h
          have hbne : block ≠ [] := by
            intro hh; rw [hh] at hbl; simp at hbl; omega
          obtain ⟨w1, w2, w3, w4, w5, w6, w7, w8, w9⟩ := fioWrite_ok (by simp only; rw [r1.data]; exact hinv) hbne hw
          injection h with h1 h2
          injection h1 with h1
          subst h1 h2
          have hm := w9 (by omega)
          have htb : block.take m = block := by rw [hm, List.take_length]
          rw [htb] at w8
          refine ⟨rfl, rfl, ?_, ?_, ?_, ?_, ?_⟩
          · simp only at w7 ⊢; rw [w7, r1.disk]
          · simp only
            rw [w8.data]
            simp only
            rw [r1.data, ← hbk]
            have := rmw_block (byteAt s.data) (s.pos - s.pos % env.bs) env.bs (s.pos % env.bs) (buf.take count) (by omega)
            rw [htl] at this
            rw [this]
            congr 1
            exact Nat.sub_add_cancel (Nat.mod_le _ _)
          · simp only; rw [w8.length]; simp only; rw [r1.data, hbl]
          · intro hblk2
            have := w8.block hblk2
            simp only at this ⊢
            rw [w8.length]
            simp only
            rw [r1.data] at this ⊢
            exact Nat.max_eq_left this
          · intro hf
            simp only
            exact w8.faults (r1.faults hf)

theorem writeUnaligned_err {env : Env} {s s' : State} {buf : Bytes} {e : Err} (hb : 0 < env.bs)
    (h : writeUnaligned env s buf = (.error e, s')) :
    Same s s' ∧ External e ∧
      (s.faults ≠ [] ∨ (env.isBlock = true ∧ s.data.length ≤ s.pos - s.pos % env.bs)) := by
  have hml := Nat.mod_lt s.pos hb
  have hal : (s.pos - s.pos % env.bs) % env.bs = 0 := by
    have := Nat.div_add_mod s.pos env.bs
    rw [show s.pos - s.pos % env.bs = env.bs * (s.pos / env.bs) by omega]
    exact Nat.mul_mod_right _ _
  unfold writeUnaligned at h
  simp only [seek, andThen, readinto] at h
  cases hr : fioReadinto env { s with pos := s.pos - s.pos % env.bs } env.bs with
  | mk r s1 =>
    rw [hr] at h
    cases r with
    | error e' =>
      simp only at h
      cases h
      obtain ⟨x1, x2, x3⟩ := fioReadinto_err hr
      refine ⟨⟨x1.data, x1.disk, x1.faults⟩, x2, ?_⟩
      rcases x3 with h | h | h
      · exact .inl h
      · exact absurd hal h
      · simp at h
    | ok got =>
      simp only at h
      obtain ⟨r1, r2, r3, r4, r5, r6, r7⟩ := fioReadinto_ok hb hr
      simp only at r1 r2 r3 r4 r5 r6 r7
      generalize hbk : ((got ++ zeros (env.bs - got.length)).take (s.pos % env.bs) ++
          buf.take (min buf.length (env.bs - s.pos % env.bs)) ++
          (got ++ zeros (env.bs - got.length)).drop (s.pos % env.bs + min buf.length (env.bs - s.pos % env.bs))) = block at h
      have hbl : block.length = env.bs := by
        rw [← hbk]; simp; omega
      cases hw : fioWrite env { s1 with pos := s.pos - s.pos % env.bs } 0 block with
      | mk r2 s2 =>
        rw [hw] at h
        cases r2 with
        | ok m => simp only at h; cases h
        | error e' =>
          simp only at h
          cases h
          obtain ⟨x1, x2, x3⟩ := fioWrite_err hw
          refine ⟨⟨by rw [x1.data]; exact r1.data, by rw [x1.disk]; exact r1.disk, fun hf => x1.faults (r1.faults hf)⟩, x2, ?_⟩
          rcases x3 with h | h | h | h | h
          · left; intro hf; exact h (r1.faults hf)
          · exact absurd hal h
          · rw [hbl] at h; simp at h
          · simp at h
          · right; simp only at h; rw [r1.data] at h; exact h

end Imageio.File
