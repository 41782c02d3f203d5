import Verif.Lemmas.LiveReadInv

/-!
Downloads that succeed although other threads change the storage.
-/
namespace Imageio.LiveRead
open Imageio.Live Imageio.Conc Imageio.Auth Imageio.Spec.LiveRead

variable {σ Γ τ : Type} {E : Env σ Γ τ}

/-! ### The programs -/

/-- The program succeeds if the storage satisfies `G` at its calls, whatever it is. -/
def Sure (M : Machine σ Γ) (B : Backend σ) (G : Γ → Prop) : RProg → σ → Prop
  | .done r _, _ => r = .ok ()
  | .seek n k, l => ∀ g, G g → Sure M B G (k (B.seek (M.view l g) n).1) (B.seek (M.view l g) n).2
  | .tell k, l => ∀ g, G g → Sure M B G (k (B.tell (M.view l g))) (M.view l g)
  | .readinto n k, l => ∀ g, G g → Sure M B G (k (B.readinto (M.view l g) n).1) (B.readinto (M.view l g) n).2

/-- What a backend does without faults: the reads return what there is, or a multiple of the block size of it. -/
structure SureLaw (M : Machine σ Γ) (B : Backend σ) where
  law : ReadLaw M B
  fine : σ → Prop
  size : Γ → Nat
  ok : Γ → Prop
  fine_view : ∀ s g, fine (M.view s g) ↔ fine s
  seek : ∀ s n, fine s → (B.seek s n).1 = .ok () ∧ fine (B.seek s n).2
  read : ∀ s n, fine s → ok (M.shared s) → law.pos s % B.blockSize = 0 → n % B.blockSize = 0 → ∃ d, (B.readinto s n).1 = .ok d ∧ fine (B.readinto s n).2 ∧
    d.length ≤ n ∧ (d.length = min n (size (M.shared s) - law.pos s) ∨
      (d.length % B.blockSize = 0 ∧ 0 < d.length ∧ d.length ≤ size (M.shared s) - law.pos s))

variable {M : Machine σ Γ} {B : Backend σ}

/-- What is needed of the storage. -/
def SureLaw.Enough (L : SureLaw M B) (e : Nat) (g : Γ) : Prop := e ≤ L.size g ∧ L.ok g

/-- The operation between its chunks. -/
structure SureInv (L : SureLaw M B) (N offset size : Nat) (st : RState) (l : σ) : Prop where
  fine : L.fine l
  buf : st.buf.length = N
  next : ∃ m : Nat, st.done = m ∧ m ≤ size ∧ (m = size ∨ (L.law.pos l % B.blockSize = 0 ∧ L.law.pos l = offset + m))

theorem sure_readChunk (L : SureLaw M B) {cancel sink : Nat → Bool} (hc : ∀ n, cancel n = false) (hk : ∀ n, sink n = false) {N offset size skip m : Nat}
    (hN : 0 < N) (hNb : N % B.blockSize = 0) (st : RState) (l : σ) (k : Except Err Unit → RState → RProg) (hf : L.fine l) (hbuf : st.buf.length = N)
    (hd : st.done = m) (hm : m < size) (hal : L.law.pos l % B.blockSize = 0) (hp : L.law.pos l + skip = offset + m) (hs : skip < B.blockSize)
    (next : ∀ st' l', SureInv L N offset size st' l' → st.done < st'.done → Sure M B (L.Enough (offset + size)) (k (.ok ()) st') l') :
    Sure M B (L.Enough (offset + size)) (readChunk B.blockSize cancel sink size skip st k) l := by
  have hbs := L.law.block_pos
  unfold readChunk
  intro g hg
  simp only
  rw [L.law.tell, L.law.pos_view, if_neg (by simpa using hal)]
  intro g' hg'
  obtain ⟨hsz, hok⟩ := hg'
  -- the number of bytes that are read
  have hru : ∃ q : Nat, roundUp ((size : Int) - st.done) B.blockSize = q ∧ q % B.blockSize = 0 ∧ size - m ≤ q := by
    obtain ⟨h1, h2, h3, -⟩ := Ops.roundUp_spec ((size : Int) - st.done) B.blockSize hbs (by omega)
    exact ⟨(roundUp ((size : Int) - st.done) B.blockSize).toNat, by omega, h3, by omega⟩
  obtain ⟨q, hq, hq0, hqle⟩ := hru
  have hlen : (pySlice st.buf 0 (roundUp ((size : Int) - st.done) B.blockSize)).length = min N q := by
    rw [Ops.pySlice_zero_length _ _ (by omega), hq, hbuf, Int.toNat_natCast, Nat.min_comm]
  rw [hlen]
  have hn0 : min N q % B.blockSize = 0 := by rcases Nat.le_total N q with h | h <;> simp [h, hNb, hq0]
  have hfv : L.fine (M.view (M.view l g) g') := (L.fine_view _ _).mpr ((L.fine_view _ _).mpr hf)
  obtain ⟨d, hr, hf', hdn, hdl⟩ := L.read (M.view (M.view l g) g') (min N q) hfv (by rw [L.law.shared_view]; exact hok)
    (by rw [L.law.pos_view, L.law.pos_view]; exact hal) hn0
  have hpos := (L.law.read _ _ _ hr).1
  rw [L.law.shared_view, L.law.pos_view, L.law.pos_view] at hdl
  rw [L.law.pos_view, L.law.pos_view] at hpos
  have hnb : B.blockSize ≤ min N q := by
    have h1 : B.blockSize ≤ N := Nat.le_of_dvd hN (Nat.dvd_of_mod_eq_zero hNb)
    have h2 : B.blockSize ≤ q := Nat.le_of_dvd (by omega) (Nat.dvd_of_mod_eq_zero hq0)
    omega
  have hskip : skip < d.length := by
    rcases hdl with h | ⟨h1, h2, -⟩
    · omega
    · have := Nat.le_of_dvd h2 (Nat.dvd_of_mod_eq_zero h1)
      omega
  rw [hr]
  simp only
  rw [if_neg (by omega), if_neg (by rw [hk]; simp), if_neg (by rw [hc]; simp)]
  refine next _ _ ⟨hf', ?_, ?_⟩ (by simp only; omega)
  · simp only [List.length_append, List.length_drop]
    omega
  · refine ⟨m + min (d.length - skip) (size - m), by simp only; omega, by omega, ?_⟩
    rw [hpos]
    by_cases hfin : size - m ≤ d.length - skip
    · left; omega
    · right
      refine ⟨?_, by omega⟩
      rcases hdl with h | ⟨h1, -, -⟩
      · have : d.length = min N q := by omega
        rw [this, Nat.add_mod, hal, hn0]; simp
      · rw [Nat.add_mod, hal, h1]; simp

theorem sure_readChunks (L : SureLaw M B) {cancel sink : Nat → Bool} (hc : ∀ n, cancel n = false) (hk : ∀ n, sink n = false) {N offset size : Nat}
    (hN : 0 < N) (hNb : N % B.blockSize = 0) : ∀ (fuel : Nat) (st : RState) (l : σ), SureInv L N offset size st l → (size : Int) - st.done ≤ fuel →
    Sure M B (L.Enough (offset + size)) (readChunks B.blockSize cancel sink size fuel st) l := by
  intro fuel
  induction fuel with
  | zero =>
    intro st l h hfu
    obtain ⟨m, h1, h2, -⟩ := h.next
    unfold readChunks
    rw [if_pos (by omega)]
    rfl
  | succ fuel ih =>
    intro st l h hfu
    obtain ⟨m, h1, h2, h3⟩ := h.next
    unfold readChunks
    split
    · rfl
    · rename_i hne
      obtain ⟨h4, h5⟩ := h3.resolve_left (by omega)
      refine sure_readChunk L hc hk hN hNb st l _ h.fine h.buf h1 (by omega) h4 (skip := 0) (by omega) L.law.block_pos ?_
      intro st' l' hi hlt
      exact ih st' l' hi (by push_cast at hfu; omega)

theorem sure_readRun (L : SureLaw M B) {cancel sink : Nat → Bool} (hc : ∀ n, cancel n = false) (hk : ∀ n, sink n = false) (buf : Bytes) {size : Nat}
    (offset : Nat) (hN : 0 < buf.length) (hNb : buf.length % B.blockSize = 0) (hs : 0 < size) (l : σ) (hf : L.fine l) :
    Sure M B (L.Enough (offset + size)) (readRun B.blockSize cancel sink buf size offset) l := by
  have hm := Nat.mod_lt offset L.law.block_pos
  have hmle := Nat.mod_le offset B.blockSize
  have hsub : (offset - offset % B.blockSize) % B.blockSize = 0 := by
    have := Nat.div_add_mod offset B.blockSize
    rw [show offset - offset % B.blockSize = B.blockSize * (offset / B.blockSize) by omega]
    exact Nat.mul_mod_right _ _
  unfold readRun
  intro g hg
  obtain ⟨h1, h2⟩ := L.seek (M.view l g) (offset - offset % B.blockSize) ((L.fine_view _ _).mpr hf)
  have hp := L.law.seek _ _ h1
  rw [h1]
  simp only
  split
  · refine sure_readChunk L hc hk hN hNb _ _ _ h2 rfl (m := 0) rfl hs (by rw [hp]; exact hsub) (by rw [hp]; omega) hm ?_
    intro st' l' hi hlt
    refine sure_readChunks L hc hk hN hNb _ st' l' hi ?_
    simp only [Int.natAbs_natCast] at hlt ⊢
    push_cast
    omega
  · rename_i hz
    refine sure_readChunks L hc hk hN hNb _ _ _ ⟨h2, rfl, 0, rfl, by omega, .inr ⟨by rw [hp]; exact hsub, ?_⟩⟩ ?_
    · rw [hp]; simp only [ne_eq, Decidable.not_not] at hz; omega
    · simp only [Int.natAbs_natCast]; push_cast; omega

/-! ### The backends -/

/-- Files and block devices without faults; reads may be short. -/
def fileSure (env : File.Env) (hb : 0 < env.bs) : SureLaw fileMachine (File.backend env) where
  law := fileRead env hb
  fine s := s.faults = []
  size g := g.1.length
  ok _ := True
  fine_view _ _ := Iff.rfl
  seek _ _ h := ⟨rfl, h⟩
  read s n h _ hp hn := by
    have hp' : s.pos % env.bs = 0 := hp
    have hn' : n % env.bs = 0 := hn
    have e : (File.backend env).readinto s n = (.ok ((s.data.drop s.pos).take (File.shortRead env s (min n (s.data.length - s.pos)))),
        { s with pos := s.pos + File.shortRead env s (min n (s.data.length - s.pos)), shortR := s.shortR.tail }) := by
      show File.fioReadinto env s n = _
      unfold File.fioReadinto File.sys
      rw [h]
      simp only [hp', hn', ne_eq, not_true_eq_false, or_self, if_false, h]
    rw [e]
    refine ⟨_, rfl, h, ?_⟩
    have hs : File.shortRead env s (min n (s.data.length - s.pos)) = min n (s.data.length - s.pos) ∨
        (File.shortRead env s (min n (s.data.length - s.pos)) < min n (s.data.length - s.pos) ∧
          ∃ r, File.shortRead env s (min n (s.data.length - s.pos)) = (r + 1) * env.bs) := by
      unfold File.shortRead
      split
      · exact .inl rfl
      · rename_i r _ _
        by_cases hx : min n (s.data.length - s.pos) ≤ (r + 1) * env.bs
        · exact .inl (Nat.min_eq_left hx)
        · exact .inr ⟨by omega, r, Nat.min_eq_right (by omega)⟩
    show _ ≤ n ∧ (_ = min n (s.data.length - s.pos) ∨ (_ % env.bs = 0 ∧ 0 < _ ∧ _ ≤ s.data.length - s.pos))
    simp only [List.length_take, List.length_drop]
    generalize File.shortRead env s (min n (s.data.length - s.pos)) = v at hs
    rcases hs with rfl | ⟨h1, r, h2⟩
    · exact ⟨by omega, .inl (by omega)⟩
    · refine ⟨by omega, .inr ?_⟩
      rw [Nat.min_eq_left (by omega)]
      refine ⟨by rw [h2]; exact Nat.mul_mod_left _ _, ?_, by omega⟩
      rw [h2]
      exact Nat.mul_pos (Nat.succ_pos _) hb

/-- NBD servers without faults, with exports of whole blocks. -/
def nbdSure (bs : Nat) (hb : 0 < bs) : SureLaw nbdMachine (NbdBackend.backend bs) where
  law := nbdRead bs hb
  fine s := s.faults = [] ∧ s.bs = bs ∧ s.mode.readable = true
  size g := g.1.length
  ok g := g.1.length % bs = 0
  fine_view _ _ := Iff.rfl
  seek _ _ h := ⟨rfl, h⟩
  read s n h ho hp hn := by
    obtain ⟨h1, h2, h3⟩ := h
    have hp' : s.pos % bs = 0 := hp
    have hn' : n % bs = 0 := hn
    have ho' : s.export_.length % bs = 0 := ho
    have hm : min n (s.export_.length - s.pos) % bs = 0 := by
      rcases Nat.le_total n (s.export_.length - s.pos) with hx | hx
      · rw [Nat.min_eq_left hx]; exact hn'
      · rw [Nat.min_eq_right hx]
        by_cases hle : s.pos ≤ s.export_.length
        · exact Nat.sub_mod_eq_zero_of_mod_eq (ho'.trans hp'.symm)
        · rw [Nat.sub_eq_zero_of_le (by omega)]; exact Nat.zero_mod _
    show ∃ d, (NbdBackend.readinto s n).1 = .ok d ∧ _
    by_cases h0 : min n (s.export_.length - s.pos) = 0
    · have e : NbdBackend.readinto s n = (.ok [], s) := by
        unfold NbdBackend.readinto
        simp only [h3, h0, Bool.not_true, Bool.false_eq_true, if_false, if_true]
      refine ⟨[], by rw [e], ?_, Nat.zero_le _, .inl h0.symm⟩
      show (NbdBackend.readinto s n).2.faults = [] ∧ (NbdBackend.readinto s n).2.bs = bs ∧ (NbdBackend.readinto s n).2.mode.readable = true
      rw [e]
      exact ⟨h1, h2, h3⟩
    · have hq : NbdBackend.request s s.pos (min n (s.export_.length - s.pos)) (fun _ s => s) = (.ok (), s) := by
        unfold NbdBackend.request
        rw [h1]
        simp only [List.tail_nil]
        rw [if_neg (by rw [h2, hp', hm]; omega), ← h1]
      have e : NbdBackend.readinto s n = (.ok ((s.export_.drop s.pos).take (min n (s.export_.length - s.pos))),
          { s with pos := s.pos + min n (s.export_.length - s.pos) }) := by
        unfold NbdBackend.readinto
        simp only [h3, h0, hq, Bool.not_true, Bool.false_eq_true, if_false]
      refine ⟨_, by rw [e], ?_, ?_, .inl ?_⟩
      · show (NbdBackend.readinto s n).2.faults = [] ∧ (NbdBackend.readinto s n).2.bs = bs ∧ (NbdBackend.readinto s n).2.mode.readable = true
        rw [e]
        exact ⟨h1, h2, h3⟩
      · simp only [List.length_take, List.length_drop]; omega
      · show _ = min n (s.export_.length - s.pos)
        simp only [List.length_take, List.length_drop]; omega

/-! ### The server -/

/-- A download that can succeed: it is not canceled, the client takes the bytes, and there is a buffer. -/
structure Ready (bs : Nat) (j : RJob) : Prop where
  cancel : ∀ n, j.cancel n = false
  sink : ∀ n, j.sink n = false
  buf : 0 < j.buf.length
  aligned : j.buf.length % bs = 0
  size : 0 < j.size

/-- The image has all the bytes of the range whenever the operation is running. -/
def Backed (E : Env σ Γ τ) (L : SureLaw E.M E.B) (mem : Http.Str → Γ) (acts : List (Act τ)) (c : Nat) (j : RJob) (r i : Nat) (u : Http.Str) : Prop :=
  ∀ pre post t, acts = pre ++ post → run E (start E mem) pre = some t → Downloading t c j r i → L.Enough (j.offset + j.size.toNat) (t.live.mem u)

theorem backed_prefix {L : SureLaw E.M E.B} {mem : Http.Str → Γ} {acts more : List (Act τ)} {c : Nat} {j : RJob} {r i : Nat} {u : Http.Str}
    (h : Backed E L mem (acts ++ more) c j r i u) : Backed E L mem acts c j r i u :=
  fun pre post t e hr hd => h pre (post ++ more) t (by rw [e, List.append_assoc]) hr hd

/-- All the connections, and all the downloads that ended. -/
structure SInv (E : Env σ Γ τ) (L : SureLaw E.M E.B) (mem : Http.Str → Γ) (acts : List (Act τ)) (s : Sys σ Γ τ) : Prop where
  cons : ∀ c j, s.reading c = some j → Ready E.B.blockSize j → ∀ r i k, (s.live.auth.conns c).pc.busy = some (r, i, k) →
    Backed E L mem acts c j r i (s.live.url r) → Sure E.M E.B (L.Enough (j.offset + j.size.toNat)) (s.rprog c) (s.live.loc k)
  sent : ∀ d ∈ s.sent, Ready E.B.blockSize d.job → Backed E L mem acts d.con d.job d.ticket d.op d.url →
    d.ok = true ∨ ∃ t, s.live.auth.tickets d.ticket = some t ∧ t.canceled = true

variable {s s' : Sys σ Γ τ} {a : Act τ}

theorem SInv.moves {L : SureLaw E.M E.B} {mem : Http.Str → Γ} {acts : List (Act τ)} (hrun : run E (start E mem) acts = some s) (w : Base E s)
    (ri : RInv E (fun _ _ => 0) mem acts s) (hfine : ∀ k, L.fine (s.live.loc k)) (h : SInv E L mem acts s) (hm : RMoves E s a s') :
    SInv E L mem (acts ++ [a]) s' := by
  have hi := w.wf.reach.inv
  -- connections that keep their program and their backend
  have keep : ∀ {c0 : Nat} {j0 : RJob} {b : Live.Act τ}, s.reading c0 = some j0 → s'.rprog c0 = s.rprog c0 → Live.step E s.live b = some s'.live →
      (s'.live.auth.conns c0).pc.busy = (s.live.auth.conns c0).pc.busy →
      (∀ r i k, (s.live.auth.conns c0).pc.busy = some (r, i, k) → s'.live.loc k = s.live.loc k) → Ready E.B.blockSize j0 →
      ∀ r i k, (s'.live.auth.conns c0).pc.busy = some (r, i, k) → Backed E L mem (acts ++ [a]) c0 j0 r i (s'.live.url r) →
        Sure E.M E.B (L.Enough (j0.offset + j0.size.toNat)) (s'.rprog c0) (s'.live.loc k) := by
    intro c0 j0 b hj hpr hb hbu hlo hrd r i k hbu' hbk
    rw [hbu] at hbu'
    obtain ⟨x, hx, -⟩ := (ri.cons c0 j0 hj).fits r i k hbu'
    obtain ⟨-, hu⟩ := evolves w.wf hb hx
    rw [hu] at hbk
    rw [hpr, hlo r i k hbu']
    exact h.cons c0 j0 hj hrd r i k hbu' (backed_prefix hbk)
  have away : ∀ {c0 : Nat} {j0 : RJob} {b : Live.Act τ}, s.reading c0 = some j0 → s'.rprog c0 = s.rprog c0 →
      Live.step E s.live b = some s'.live → conOf b ≠ some c0 → Ready E.B.blockSize j0 →
      ∀ r i k, (s'.live.auth.conns c0).pc.busy = some (r, i, k) → Backed E L mem (acts ++ [a]) c0 j0 r i (s'.live.url r) →
        Sure E.M E.B (L.Enough (j0.offset + j0.size.toNat)) (s'.rprog c0) (s'.live.loc k) := by
    intro c0 j0 b hj hpr hb hc
    have hpc := (pc_other hb hc).1
    exact keep hj hpr hb (by rw [hpc]) fun r i k hbu => loc_same w.wf hb hbu (.inl hc)
  have drop : ∀ {c c0 : Nat} {j : RJob}, upd s.reading c none c0 = some j → c0 ≠ c ∧ s.reading c0 = some j := by
    intro c c0 j h
    by_cases hc : c0 = c
    · subst hc; simp at h
    · rw [upd_other _ _ hc] at h; exact ⟨hc, h⟩
  have ne : ∀ {c c0 : Nat}, c0 ≠ c → (some c : Option Nat) ≠ some c0 := fun h e => h (by cases e; rfl)
  refine ⟨fun c0 j0 hj0 => ?_, fun d hd hrd hbk => ?_⟩
  · cases hm with
    | other _ b t hb hc => exact away hj0 rfl hb (hc c0 j0 hj0)
    | start c j r k t hj hp hl ht hs hi' =>
      by_cases hc : c0 = c
      · subst hc
        have e : j0 = j := by
          have : s.reading c0 = some j0 := hj0
          rw [hj] at this; cases this; rfl
        subst e
        intro hrd r' i' k' hb hbk
        show Sure _ _ _ (upd s.rprog c0 _ c0) _
        rw [upd_same]
        unfold RJob.prog
        have hsz := hrd.size
        generalize hz : j0.size.toNat = z
        rw [show j0.size = (z : Int) by omega]
        refine sure_readRun L hrd.cancel hrd.sink _ _ hrd.buf hrd.aligned (by omega) _ ?_
        have hk : (open_ E s.live t).loc k' = s.live.loc k' := by
          have hnc : t.nextCtx = s.live.auth.nextCtx := by
            cases Auth.Step.of_step ht with
            | startRefused => rfl
            | startOp => rfl
          unfold open_
          simp [hnc]
        show L.fine ((open_ E s.live t).loc k')
        rw [hk]
        exact hfine k'
      · exact away hj0 (upd_other _ _ hc) hl (ne hc)
    | finish c j r i k t hj hp hl ht => exact away (drop hj0).2 rfl hl (ne (drop hj0).1)
    | drop b c t hl ht hc hr => exact away (drop hj0).2 rfl hl (by show System.conOf b ≠ _; rw [hc]; exact ne (drop hj0).1)
    | go b c j t hj hl ht hc h1 h2 hi' he =>
      by_cases hcc : c0 = c
      · subst hcc
        have e : j0 = j := by
          have : s.reading c0 = some j0 := hj0
          rw [hj] at this; cases this; rfl
        subst e
        exact keep hj rfl hl ((Auth.Step.of_step ht).busy h1 h2) fun r i k hbu => loc_same w.wf hl hbu (.inr rfl)
      · exact away hj0 rfl hl (by show System.conOf b ≠ _; rw [hc]; exact ne hcc)
    | get c id j t hl hi' =>
      by_cases hcc : c0 = c
      · subst hcc
        obtain ⟨hs, hidle⟩ := request_eq hl
        intro _ r i k hbu
        exfalso
        have hbu' : (t.auth.conns c0).pc.busy = some (r, i, k) := hbu
        generalize t.auth = ta at hs hi' hbu'
        cases Auth.Step.of_step hs with
        | refused _ _ _ _ _ hp => exact absurd hp hi'
        | request => simp [Auth.State.goto, Auth.Pc.busy] at hbu'
      · simp only [upd_other _ _ hcc] at hj0
        exact away hj0 rfl hl (ne hcc)
    | read c j r i k q p t hj hp hl hq =>
      by_cases hcc : c0 = c
      · subst hcc
        have e : j0 = j := by
          have : s.reading c0 = some j0 := hj0
          rw [hj] at this; cases this; rfl
        subst e
        have et := look_eq hl hp
        have hta : t.auth = s.live.auth := by rw [et]
        have htu : t.url = s.live.url := by rw [et]
        intro hrd r' i' k' hb hbk
        simp only [hta] at hb
        simp only [htu] at hbk
        have hbu : (s.live.auth.conns c0).pc.busy = some (r, i, k) := by rw [hp]; rfl
        rw [hbu] at hb
        cases hb
        have hw := h.cons c0 j0 hj hrd r i k hbu (backed_prefix hbk)
        have hg := hbk acts [.read c0] s rfl hrun ⟨hj, k, hp⟩
        obtain ⟨-, -, htk, -⟩ := hi.busy c0 r i k hbu
        show Sure _ _ _ (upd s.rprog c0 p c0) (t.loc k)
        rw [upd_same, et]
        simp only [upd_same]
        rw [htk]
        rw [htk] at hq
        rcases hq with ⟨n, f, rfl, hpr, rfl⟩ | ⟨f, rfl, hpr, rfl⟩ | ⟨n, f, rfl, hpr, rfl⟩
        · rw [hpr] at hw
          exact hw _ hg
        · rw [hpr] at hw
          exact hw _ hg
        · rw [hpr] at hw
          exact hw _ hg
      · exact away hj0 (upd_other _ _ hcc) hl (ne hcc)
  · by_cases hold : d ∈ s.sent
    · rcases h.sent d hold hrd (backed_prefix hbk) with h1 | ⟨t, h1, h2⟩
      · exact .inl h1
      · obtain ⟨b, hb⟩ := hm.live
        rcases (step_moves hb).auth with he | ⟨b, hb⟩
        · exact .inr ⟨t, by rw [he]; exact h1, h2⟩
        · obtain ⟨t', ht', e⟩ := (Auth.Step.of_step hb).evolve hi h1
          exact .inr ⟨t', ht', e.canceled h2⟩
    · cases hm with
      | finish c j r i k t hj hp hl ht =>
        rcases List.mem_append.mp hd with hd | hd
        · exact absurd hd hold
        · simp only [List.mem_singleton] at hd
          subst hd
          have hbu : (s.live.auth.conns c).pc.busy = some (r, i, k) := by rw [hp]; rfl
          obtain ⟨-, -, htk, -⟩ := hi.busy c r i k hbu
          simp only [htk] at hbk
          have hw := h.cons c j hj hrd r i k hbu (backed_prefix hbk)
          obtain ⟨res, out, hdone⟩ := returned_done ((ri.cons c j hj).ret r i k hp)
          rw [hdone] at hw
          have hres : res = .ok () := hw
          rw [hdone, hres]
          cases Auth.Step.of_step ht with
          | removeOp _ r' i' _ tk op hp' ht' ho =>
            rw [hp] at hp'
            cases hp'
            obtain ⟨-, hcan, -, -, -, href, -⟩ := Auth.removeOperation_fields tk op
            cases hcc : tk.canceled with
            | false => left; simp [result, Auth.State.goto, href, hcc]
            | true => right; exact ⟨(tk.removeOperation op).2, by simp [open_, Auth.State.goto, Auth.State.event, Auth.State.setTicket], by rw [hcan, hcc]⟩
      | _ => exact absurd hd hold

end Imageio.LiveRead
