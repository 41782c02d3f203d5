import Verif.Lemmas.LiveLaw
/-!
The backends of the server with operations that own their blocks: files and block devices, and NBD.
-/
namespace Imageio.Live
open Imageio.Conc Imageio.Props Imageio.Spec Imageio.Spec.Live

variable {τ σ Γ : Type} {S : Source τ}

theorem job_inv {PB : ProgBackend σ} {B : Backend σ} {L : Lawful B} (H : Conc.Runs PB B) (R : LawfulSource S) (j : Job τ)
    (hb : j.zero = false → 0 < j.bufLen ∧ j.bufLen % B.blockSize = 0 ∧ R.Inv j.src) (s : σ) (hi : L.Inv s)
    (r : Except Err Unit) (s' : σ) (h : Prog.run (j.prog PB S) s = (r, s')) : L.Inv s' := by
  unfold Job.prog at h
  cases hz : j.zero with
  | true =>
    rw [hz, if_pos rfl, run_zeroRunP H] at h
    generalize hx : Ops.zeroRun B j.cancel j.size j.offset j.flush s = x at h
    obtain ⟨r0, st⟩ := x
    cases h
    have hp := (Ops.zeroRun_spec L j.cancel j.size j.offset j.flush s hi _ _ hx).1
    unfold Ops.ZeroPost at hp
    split at hp
    · exact hp.1.inv
    · exact hp.1.inv
    · exact hp.2.2.2.inv
  | false =>
    obtain ⟨hb1, hb2, hb3⟩ := hb hz
    rw [hz, if_neg (by simp), run_writeRunP H] at h
    generalize hx : Ops.writeRun B S j.cancel j.bufLen j.size j.offset j.flush s j.src = x at h
    obtain ⟨r0, st⟩ := x
    cases h
    have hp := (Ops.writeRun_spec L R j.cancel j.bufLen j.size j.offset j.flush hb1 hb2 s j.src hi hb3 _ _ hx).1
    unfold Ops.WritePost at hp
    split at hp
    · exact hp.1.inv
    · exact hp.1.inv
    · exact hp.1.inv
    · exact hp.2.2.2.2.inv

/-- The server chose a buffer for the request (`backends/__init__.py`), and the body is well formed. -/
def Sensible (bs : Nat) (R : LawfulSource S) (j : Job τ) : Prop :=
  j.zero = false → 0 < j.bufLen ∧ j.bufLen % bs = 0 ∧ R.Inv j.src

/-- Nothing but the storage can make the request fail: all of the body arrives, and nobody cancels it. -/
def Complete (R : LawfulSource S) (j : Job τ) : Prop :=
  (j.zero = false → ¬ R.mayFail ∧ j.size ≤ (R.rest j.src).length) ∧ ∀ n, j.cancel n = false

/-- A request that uses only its blocks. -/
theorem own_of_confines {M : Machine σ Γ} {Sp : Space M} {PB : ProgBackend σ} {B : Backend σ} {L : Lawful B} {z : Nat → Prop}
    (H : Conc.Runs PB B) (C : Confines Sp PB L z) (hcont : ∀ s, L.content s = Sp.content (M.shared s)) (R : LawfulSource S) (j : Job τ)
    (hb : Sensible B.blockSize R j) (hz : j.zero = true → z (j.offset + j.size)) (invL : σ → Prop)
    (hL : ∀ s, L.Inv s → invL s) (hv : ∀ s g, invL (M.view s g) ↔ invL s) (sure : Prop)
    (hs : sure → ¬ L.MayFail j.offset j.size ∧ Complete R j) (s : σ) (hi : L.Inv s) :
    Sp.Owned (Near B.blockSize j.offset j.size)
      (Post R Sp.content M B.blockSize invL sure j (Sp.content (M.shared s))) (j.prog PB S) s := by
  refine Space.Confined.owned ?_ fun r s' h g hg => ?_
  · unfold Job.prog
    cases hzero : j.zero with
    | true => rw [if_pos rfl]; exact confined_zeroRunP H C _ _ _ (fun _ => hz hzero) _ _ hi
    | false =>
      rw [if_neg (by simp)]
      obtain ⟨b1, b2, b3⟩ := hb hzero
      exact confined_writeRunP H C R _ _ _ _ _ b2 _ _ hi b3
  · obtain ⟨a1, a2, a3⟩ := job_alone (L := L) H R j hb s hi r s' h
    simp only [hcont] at a1 a2
    refine ⟨fun he => ?_, fun x hx ho => ?_, (hv _ _).mpr (hL _ (job_inv H R j hb s hi r s' h)), fun hsu => ?_⟩
    · obtain ⟨w1, w2⟩ := a1 he
      refine ⟨w1, fun x hx => ?_⟩
      rw [Sp.shared_view, hg.content x ⟨x, hx, rfl⟩, w2, store_inside _ _ _ _ hx.1 (by rw [w1]; exact hx.2)]
      simp [byteAt, w1, show x - j.offset < j.size by have := hx.1; have := hx.2; omega]
    · rw [Sp.shared_view, hg.content x hx]
      exact a2 x ho
    · exact a3 (hs hsu).1 (hs hsu).2.1 (hs hsu).2.2

/-! ### Files -/

/-- The server with the file backend. -/
def fileEnv (env : File.Env) (S : Source τ) (cfg : Auth.Config) (opened : File.State) : Env File.State (Bytes × Bytes) τ :=
  ⟨fileMachine, fileP env, S, cfg, opened, File.backend env⟩

theorem blockEnd_le {bs cap n : Nat} (hb : 0 < bs) (hcap : cap % bs = 0) (h : n ≤ cap) : (n + bs - 1) / bs * bs ≤ cap := by
  obtain ⟨q, hq⟩ := Nat.dvd_of_mod_eq_zero hcap
  rw [hq, Nat.mul_comm bs q]
  apply Nat.mul_le_mul_right
  rw [Nat.div_le_iff_le_mul_add_pred hb, Nat.mul_comm]
  rw [hq, Nat.mul_comm] at h
  omega

theorem file_look (env : File.Env) (q : Query) (s : File.State) (h : s.faults = []) : (q.after (File.backend env) s).faults = [] := by
  cases q with
  | seek n => exact h
  | tell => exact h
  | readinto n =>
    show (File.fioReadinto env s n).2.faults = []
    unfold File.fioReadinto File.sys
    rw [h]
    simp only
    split <;> simp [h]

/-- Files and block devices, with zeroing inside of the file. -/
def fileLaw (env : File.Env) (hb : 0 < env.bs) (R : LawfulSource S) (cfg : Auth.Config) (opened : File.State) (cap : Http.Str → Nat)
    (hcap : env.isBlock = true → ∀ u, cap u % env.bs = 0) (strict : Prop) (ho : strict → opened.faults = []) :
    Law (fileEnv env S cfg opened) R where
  bs := env.bs
  content g := byteAt g.1
  space u := fileSpace env (cap u)
  content_eq _ := rfl
  invG u g := (env.isBlock = true → g.1.length = cap u) ∧ cap u ≤ g.1.length
  invG_sized u g g' h hs := ⟨fun hb => (hs.1 hb).symm.trans (h.1 hb), hs.2 h.2⟩
  invL s := strict → s.faults = []
  invL_view _ _ := Iff.rfl
  opened := ho
  look q s h hs := file_look env q s (h hs)
  ok u j := Sensible env.bs R j ∧ (j.zero = true → env.isBlock = true ∨ j.offset + j.size ≤ cap u)
  sure u j := strict ∧ (env.isBlock = true → j.offset + j.size ≤ cap u) ∧ Complete R j
  own u j s hok hG hL := by
    have hc : (if env.isBlock then cap u else 0) % env.bs = 0 := by
      split
      · exact hcap ‹_› u
      · exact Nat.zero_mod _
    refine own_of_confines (L := atLeast (File.lawful env hb strict (if env.isBlock then cap u else 0) hc) (cap u)) (file_runs env)
      (file_confines env hb strict _ hc (cap u)) (fun _ => rfl) R j hok.1 hok.2 _ (fun s h => h.1.2) (fun _ _ => Iff.rfl) _
      (fun hs => ⟨?_, hs.2.2⟩) s ⟨⟨fun h => ?_, hL⟩, hG.2⟩
    · rintro ⟨k, hk, hm⟩
      rcases hm with hm | ⟨hb', hm⟩
      · exact hm hs.1
      · rw [if_pos hb'] at hm hc
        have := blockEnd_le hb hc (hs.2.1 hb')
        have hk' : k ≤ (j.offset + j.size + env.bs - 1) / env.bs * env.bs := hk
        omega
    · rw [if_pos h]; exact hG.1 h

/-- Regular files that are not sparse: zeroing may be anywhere. -/
def denseLaw (env : File.Env) (hb : 0 < env.bs) (hreg : env.isBlock = false) (hsp : env.sparse = false) (R : LawfulSource S)
    (cfg : Auth.Config) (opened : File.State) (strict : Prop) (ho : strict → opened.faults = []) : Law (fileEnv env S cfg opened) R where
  bs := env.bs
  content g := byteAt g.1
  space _ := fileSpace env 0
  content_eq _ := rfl
  invG _ _ := True
  invG_sized _ _ _ _ _ := trivial
  invL s := strict → s.faults = []
  invL_view _ _ := Iff.rfl
  opened := ho
  look q s h hs := file_look env q s (h hs)
  ok _ j := Sensible env.bs R j
  sure _ j := strict ∧ Complete R j
  own u j s hok _ hL := by
    cases hz : j.zero with
    | false =>
      refine own_of_confines (L := atLeast (File.lawful env hb strict 0 (Nat.zero_mod _)) 0) (file_runs env)
        (file_confines env hb strict 0 (Nat.zero_mod _) 0) (fun _ => rfl) R j hok (fun h => (by rw [hz] at h; cases h)) _ (fun s h => h.1.2)
        (fun _ _ => Iff.rfl) _ (fun hs => ⟨?_, hs.2⟩) s ⟨⟨fun h => (by rw [hreg] at h; cases h), hL⟩, Nat.zero_le _⟩
      rintro ⟨k, hk, hm⟩
      rcases hm with hm | ⟨hb', _⟩
      · exact hm hs.1
      · rw [hreg] at hb'; cases hb'
    | true =>
      have e : j.prog (fileP env) S = zeroRunP (fileP env) j.cancel j.size j.offset j.flush := by
        unfold Job.prog; rw [hz, if_pos rfl]
      show (fileSpace env 0).Owned _ _ (j.prog (fileP env) S) s
      rw [e]
      refine (owned_zeroRunP hb hreg hsp s j.cancel j.offset j.size j.flush).post fun r s' h => ?_
      cases r with
      | ok x =>
        refine ⟨fun _ => ?_, fun x hx hn => ?_, fun hs => h.2 (hL hs), fun _ => rfl⟩
        · unfold wantedBytes
          rw [hz, if_pos rfl]
          refine ⟨List.length_replicate, fun x hx => ?_⟩
          show byteAt s'.data x = _
          rw [h.1 x ⟨x, hx, rfl⟩, store_inside _ _ _ _ hx.1 (by rw [Ops.zeros_length]; exact hx.2)]
          simp [byteAt, zeros, show x - j.offset < j.size by have := hx.1; have := hx.2; omega]
        · show byteAt s'.data x = byteAt s.data x
          rw [h.1 x hx]
          simp only [store, Ops.zeros_length]
          exact if_neg hn
      | error e =>
        refine ⟨fun h => (by cases h), h.2.1, fun hs => h.2.2 (hL hs), fun hs => ?_⟩
        rcases h.1 with ⟨n, hn⟩ | hf
        · rw [hs.2.2 n] at hn; cases hn
        · exact absurd (hL hs.1) hf

/-! ### NBD -/

/-- The server with the NBD backend. -/
def nbdEnv (bs : Nat) (S : Source τ) (cfg : Auth.Config) (opened : NbdBackend.State) : Env NbdBackend.State (Bytes × Bytes) τ :=
  ⟨nbdMachine, nbdP bs, S, cfg, opened, NbdBackend.backend bs⟩

theorem nbd_request_same (s : NbdBackend.State) (off n : Nat) :
    (NbdBackend.request s off n (fun _ s => s)).2 = { s with faults := s.faults.tail } := by
  unfold NbdBackend.request
  split
  · rename_i h; simp [h]
  · simp only
    split <;> rfl

theorem nbd_look (bs : Nat) (q : Query) (s : NbdBackend.State) : (q.after (NbdBackend.backend bs) s).bs = s.bs ∧
    (q.after (NbdBackend.backend bs) s).canFlush = s.canFlush ∧ (q.after (NbdBackend.backend bs) s).mode = s.mode ∧
    (q.after (NbdBackend.backend bs) s).canZero = s.canZero ∧ (s.faults = [] → (q.after (NbdBackend.backend bs) s).faults = []) := by
  cases q with
  | seek n => exact ⟨rfl, rfl, rfl, rfl, id⟩
  | tell => exact ⟨rfl, rfl, rfl, rfl, id⟩
  | readinto n =>
    show (NbdBackend.readinto s n).2.bs = _ ∧ (NbdBackend.readinto s n).2.canFlush = _ ∧ (NbdBackend.readinto s n).2.mode = _ ∧
      (NbdBackend.readinto s n).2.canZero = _ ∧ (_ → (NbdBackend.readinto s n).2.faults = [])
    unfold NbdBackend.readinto
    simp only
    have hq := nbd_request_same s s.pos (min n (s.export_.length - s.pos))
    generalize NbdBackend.request s s.pos (min n (s.export_.length - s.pos)) (fun _ s => s) = x at hq ⊢
    obtain ⟨x1, x2⟩ := x
    simp only at hq
    subst hq
    split
    · exact ⟨rfl, rfl, rfl, rfl, id⟩
    · split
      · exact ⟨rfl, rfl, rfl, rfl, id⟩
      · cases x1 <;> exact ⟨rfl, rfl, rfl, rfl, fun h => by simp [h]⟩

/-- NBD servers with the sizes `cap`. -/
def nbdLaw (bs : Nat) (hb : 0 < bs) (R : LawfulSource S) (cfg : Auth.Config) (opened : NbdBackend.State) (cap : Http.Str → Nat)
    (strict : Prop) (h1 : strict → bs = 1) (ho : opened.bs = bs ∧ opened.canFlush = true)
    (hs : strict → opened.faults = [] ∧ opened.mode = .rw ∧ opened.canZero = true) : Law (nbdEnv bs S cfg opened) R where
  bs := bs
  content g := byteAt g.1
  space _ := nbdSpace
  content_eq _ := rfl
  invG u g := g.1.length = cap u
  invG_sized u g g' h hs := hs.symm.trans h
  invL s := s.bs = bs ∧ s.canFlush = true ∧ (strict → s.faults = [] ∧ s.mode = .rw ∧ s.canZero = true)
  invL_view _ _ := Iff.rfl
  opened := ⟨ho.1, ho.2, hs⟩
  look q s h := by
    obtain ⟨h1, h2, h3, h4, h5⟩ := nbd_look bs q s
    exact ⟨h1.trans h.1, h2.trans h.2.1, fun hs => ⟨h5 (h.2.2 hs).1, h3.trans (h.2.2 hs).2.1, h4.trans (h.2.2 hs).2.2⟩⟩
  ok _ j := Sensible bs R j
  sure u j := strict ∧ j.offset + j.size ≤ cap u ∧ Complete R j
  own u j s hok hG hL := by
    refine own_of_confines (L := NbdBackend.lawful bs hb strict (cap u) h1) (nbd_runs bs) (nbd_confines bs hb strict (cap u) h1) (fun _ => rfl) R j
      hok (fun _ => trivial) _ (fun s h => ⟨h.1, h.2.1, h.2.2.2⟩) (fun _ _ => Iff.rfl) _ (fun hs => ⟨?_, hs.2.2⟩) s ⟨hL.1, hL.2.1, hG, hL.2.2⟩
    rintro ⟨k, hk, hm⟩
    rcases hm with hm | hm
    · exact hm hs.1
    · have e := h1 hs.1
      subst e
      have h2 := hs.2.1
      have hk' : k ≤ (j.offset + j.size + 1 - 1) / 1 * 1 := hk
      have hm' : cap u < k := hm
      omega

end Imageio.Live
