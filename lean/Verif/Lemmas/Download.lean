import Verif.Model.Download
import Verif.Lemmas.Upload
import Verif.Props.HttpBackend
import Verif.Props.ClientHandler
/-! Workers of a download. -/
namespace Imageio.Download
open Imageio.Spec Imageio.Conc Imageio.Conc.Prog Imageio.HttpBackend Imageio.Io Imageio.Props
open Imageio.Http (clientRange)

/-! ### Threads with disjoint regions -/

section
variable {ι σ Γ α β : Type} {M : Machine σ Γ} {Sp : Space M}

/-- Threads that use disjoint regions and end with a flush: what a thread wrote is durable when it ended. -/
theorem threads_durable [DecidableEq ι] {K : σ → Prop} {dur : Γ → Nat → Byte} (hK : ∀ s g, K s → K (M.view s g))
    {R : ι → Nat → Prop} (hR : ∀ i j x, R i x → R j x → i = j) {c0 c : Config ι σ Γ} (hk : ∀ i, K (c0.loc i))
    (hc : ∀ i, Sp.Confined (R i) (c0.prog i) (M.view (c0.loc i) c0.mem))
    (hsy : ∀ i, Syncing M K Sp.content dur (c0.prog i)) (hfl : ∀ i, FlushLast M K Sp.content dur (c0.prog i))
    (h : Conc.Steps M c0 c) :
    ∀ i, c.prog i = .ret (.ok ()) → ∀ x, (R i x ∨ ∀ j, ¬ R j x) → dur c.mem x = Sp.content c.mem x := by
  suffices key : (∀ i, K (c.loc i)) ∧ (∀ i, Syncing M K Sp.content dur (c.prog i)) ∧
      ∀ i, FlushLast M K Sp.content dur (c.prog i) ∨
        (c.prog i = .ret (.ok ()) ∧ ∀ x, (R i x ∨ ∀ j, ¬ R j x) → dur c.mem x = Sp.content c.mem x) by
    intro i he
    rcases key.2.2 i with hf | hf
    · rw [he] at hf
      exact hf.elim
    · exact hf.2
  induction h with
  | refl => exact ⟨hk, hsy, fun i => .inl (hfl i)⟩
  | @tail b _ hb hstep ih =>
    obtain ⟨ih0, ih1, ih2⟩ := ih
    obtain ⟨t, I⟩ := Space.isolated Sp R hR c0 hc hb
    cases hstep with
    | mk i f k hp =>
    have hci := I.confined i
    rw [hp] at hci
    have hsafe := hci.1 _ (I.agree i)
    have hout := hsafe.outside
    rw [I.loc i] at hout
    have hsy := ih1 i
    rw [hp] at hsy
    have hsy := hsy (M.view (b.loc i) b.mem) (hK _ _ (ih0 i))
    rw [Sp.shared_view] at hsy
    have hfl : FlushLast M K Sp.content dur (.step f k) := by
      rcases ih2 i with hf | hf
      · rw [hp] at hf; exact hf
      · rw [hp] at hf; cases hf.1
    have hfl := hfl (M.view (b.loc i) b.mem) (hK _ _ (ih0 i))
    refine ⟨fun j => ?_, fun j => ?_, fun j => ?_⟩
    · by_cases hj : j = i
      · simp only [hj, if_true]; exact hsy.1.2
      · simp only [hj, if_false]; exact ih0 j
    · by_cases hj : j = i
      · simp only [hj, if_true]; exact hsy.2
      · simp only [hj, if_false]; exact ih1 j
    · by_cases hj : j = i
      · simp only [hj, if_true]
        by_cases hk : k (M.view (b.loc i) b.mem) = .ret (.ok ())
        · exact .inr ⟨hk, fun x _ => by rw [hfl.1 hk]⟩
        · exact .inl (hfl.2 hk)
      · simp only [hj, if_false]
        rcases ih2 j with hf | ⟨hf, hd⟩
        · exact .inl hf
        · refine .inr ⟨hf, fun x hx => ?_⟩
          have hxi : ¬ R i x := by
            rcases hx with hx | hx
            · intro h'
              exact hj (hR _ _ _ hx h')
            · exact hx i
          rcases hsy.1.1 with h1 | h1
          · rw [h1, hd x hx]
            exact (hout x hxi).symm
          · rw [h1]

end

/-! ### Running a worker alone -/

section
variable {σ δ : Type} {S : Server σ} {D : ProgBackend δ} {B : Backend δ}

theorem run_writerLoopP (H : Runs D B) (addr step : Nat) (todo : Nat) : ∀ (pieces : List Nat) (body : Bytes) (t : δ),
    run (writerLoopP D addr pieces body step todo) t = writerLoop B addr pieces body step todo t := by
  induction todo using Nat.strongRecOn with
  | _ todo ih =>
    intro pieces body t
    rw [writerLoopP, writerLoop]
    split
    · rfl
    · simp only
      split
      · rfl
      · rw [run_bind, H.write]
        cases B.write t addr (body.take (min (min todo step) (min body.length (pieces.headD todo + 1)))) with
        | mk r t1 =>
          cases r with
          | error e => rfl
          | ok n => exact ih _ (by omega) _ _ _

theorem run_handle_copy (H : Runs D B) (addr step : Nat) (w : World σ) (start length : Nat) (t : δ) :
    run (handleP S D addr step w ⟨.copy, start, length⟩) t =
      match copyFrom S B addr start length step w t with
      | (.error e, _, t') => (.error e, t')
      | (.ok _, w', t') => (.ok w', t') := by
  unfold handleP copyFrom
  simp only
  rw [run_bind, H.seek]
  cases B.seek t start with
  | mk r t1 =>
    cases r with
    | error e => rfl
    | ok u =>
      simp only
      unfold writeToP writeTo
      simp only
      cases getRequest S (some (clientRange (HttpBackend.seek w start).2.client.position length)) (HttpBackend.seek w start).2 with
      | mk r2 w2 =>
        cases r2 with
        | error e => rfl
        | ok resp =>
          simp only
          cases checkRange length resp with
          | error e => rfl
          | ok body =>
            simp only
            rw [run_bind, run_writerLoopP H]
            cases writerLoop B addr (HttpBackend.seek w start).2.net.pieces body step length t1 with
            | mk r3 t3 => cases r3 <;> rfl

theorem syncing_writerLoop {Γ : Type} {M : Machine δ Γ} {K : δ → Prop} {cont dur : Γ → Nat → Byte} (Y : Syncs M K cont dur D)
    (addr step : Nat) (todo : Nat) : ∀ (pieces : List Nat) (body : Bytes),
      Syncing M K cont dur (writerLoopP D addr pieces body step todo) := by
  induction todo using Nat.strongRecOn with
  | _ todo ih =>
    intro pieces body
    rw [writerLoopP]
    split
    · trivial
    · simp only
      split
      · trivial
      · exact Syncing.bind (fun _ => ih _ (by omega) _ _) (Y.write _ _)

theorem syncing_handle {Γ : Type} {M : Machine δ Γ} {K : δ → Prop} {cont dur : Γ → Nat → Byte} (Y : Syncs M K cont dur D)
    (addr step : Nat) (w : World σ) (r : Req) : Syncing M K cont dur (handleP S D addr step w r) := by
  unfold handleP
  split
  · exact Syncing.bind (fun _ => Syncing.bind (fun _ => syncing_pure _) (Y.zero _)) (Y.seek _)
  · refine Syncing.bind (fun _ => ?_) (Y.seek _)
    unfold writeToP
    simp only
    split
    · trivial
    · split
      · trivial
      · exact Syncing.bind (fun _ => syncing_pure _) (syncing_writerLoop Y _ _ _ _ _)
  · trivial

theorem syncing_worker {Γ : Type} {M : Machine δ Γ} {K : δ → Prop} {cont dur : Γ → Nat → Byte} (Y : Syncs M K cont dur D)
    (addr step : Nat) (rs : List Req) (w : World σ) : Syncing M K cont dur (workerP S D addr step rs w) := by
  unfold workerP
  refine Syncing.bind (fun _ => Y.flush) ?_
  induction rs generalizing w with
  | nil => trivial
  | cons r rs ih => exact Syncing.bind (fun w => ih w) (syncing_handle Y _ _ _ _)

end

/-! ### The local image -/

theorem confined_nbd_write {R : Nat → Prop} (a : Nat) (d : Bytes) (s : NbdBackend.State)
    (hR : ∀ i, s.pos ≤ i → i < s.pos + d.length → R i) :
    nbdSpace.Confined R (Prog.call fun s => NbdBackend.write s a d) s := by
  by_cases hm : s.mode.writable = false
  · refine confined_raise _ (.error NbdBackend.unsupported) fun g => ?_
    rw [nbd_write_eq, if_pos (show (nbdMachine.view s g).mode.writable = false from hm)]
  · refine confined_request (n := d.length) (w := fun k => d.take k) (fun k hk => by simp [hk]) hR _ fun g => ?_
    rw [nbd_write_eq, if_neg (show ¬ (nbdMachine.view s g).mode.writable = false from hm)]
    rfl

theorem confined_nbd_zero {R : Nat → Prop} (c : Nat) (s : NbdBackend.State)
    (hR : ∀ i, s.pos ≤ i → i < s.pos + c → R i) :
    nbdSpace.Confined R (Prog.call fun s => NbdBackend.zero s c) s := by
  by_cases hm : s.mode.writable = false
  · refine confined_raise _ (.error NbdBackend.unsupported) fun g => ?_
    rw [nbd_zero_eq, if_pos (show (nbdMachine.view s g).mode.writable = false from hm)]
  · by_cases hz : s.canZero = false
    · refine confined_raise _ (.error (.exception "UnsupportedRequest")) fun g => ?_
      rw [nbd_zero_eq, if_neg (show ¬ (nbdMachine.view s g).mode.writable = false from hm),
        if_pos (show (nbdMachine.view s g).canZero = false from hz)]
    · refine confined_request (n := c) (w := fun k => zeros k) (fun k hk => by simpa using hk) hR _ fun g => ?_
      rw [nbd_zero_eq, if_neg (show ¬ (nbdMachine.view s g).mode.writable = false from hm),
        if_neg (show ¬ (nbdMachine.view s g).canZero = false from hz)]
      rfl

theorem nbd_write_pos {s s' : NbdBackend.State} {a n : Nat} {d : Bytes} (h : NbdBackend.write s a d = (.ok n, s')) :
    s'.pos = s.pos + d.length := by
  rw [nbd_write_eq] at h
  split at h
  · cases h
  · unfold reply at h
    split at h
    · cases h
    · cases h; rfl

theorem confined_writerLoop {R : Nat → Prop} (bs addr step : Nat) (todo : Nat) :
    ∀ (pieces : List Nat) (body : Bytes) (t : NbdBackend.State), (∀ i, t.pos ≤ i → i < t.pos + todo → R i) →
      nbdSpace.Confined R (writerLoopP (nbdP bs) addr pieces body step todo) t := by
  induction todo using Nat.strongRecOn with
  | _ todo ih =>
    intro pieces body t hR
    rw [writerLoopP]
    split
    · trivial
    · simp only
      split
      · trivial
      · generalize hk : min (min todo step) (min body.length (pieces.headD todo + 1)) = k at *
        have hlen : (body.take k).length = k := by rw [List.length_take]; omega
        refine Space.Confined.bind (confined_nbd_write addr (body.take k) t fun i h1 h2 => hR i h1 (by omega)) fun n t' ht => ?_
        have hp : t'.pos = t.pos + (body.take k).length := nbd_write_pos (a := addr) ht
        exact ih _ (by omega) _ _ _ fun i h1 h2 => hR i (by omega) (by omega)

variable {σ : Type} {S : Server σ}

theorem confined_handle {R : Nat → Prop} (bs addr step : Nat) (w : World σ) (r : Req) (t : NbdBackend.State)
    (hR : ∀ i, r.covers i → R i) : nbdSpace.Confined R (handleP S (nbdP bs) addr step w r) t := by
  have hseek : nbdSpace.Confined R ((nbdP bs).seek r.start) t := Space.confined_local (fun _ => rfl) rfl
  have hpos : ∀ (u : Unit) t', run ((nbdP bs).seek r.start) t = (.ok u, t') → t'.pos = r.start := by
    intro u t' h
    cases h; rfl
  unfold handleP
  split
  · refine Space.Confined.bind hseek fun u t' ht => Space.Confined.bind ?_ fun _ _ _ => trivial
    refine confined_nbd_zero _ _ fun i h1 h2 => hR i ⟨?_, ?_⟩ <;> have := hpos u t' ht <;> omega
  · refine Space.Confined.bind hseek fun u t' ht => ?_
    unfold writeToP
    simp only
    split
    · trivial
    · split
      · trivial
      · refine Space.Confined.bind ?_ fun _ _ _ => trivial
        refine confined_writerLoop _ _ _ _ _ _ _ fun i h1 h2 => hR i ⟨?_, ?_⟩ <;> have := hpos u t' ht <;> omega
  · trivial

/-- The bytes of the requests of a worker. -/
def Handles (rs : List Req) (x : Nat) : Prop := ∃ r ∈ rs, r.covers x

theorem confined_requests (bs addr step : Nat) : ∀ (rs : List Req) (w : World σ) (t : NbdBackend.State),
    nbdSpace.Confined (Handles rs) (requestsP S (nbdP bs) addr step rs w) t := by
  intro rs
  induction rs with
  | nil => intro w t; trivial
  | cons r rs ih =>
    intro w t
    refine Space.Confined.bind (confined_handle _ _ _ _ _ _ fun i hi => ⟨r, List.mem_cons_self .., hi⟩) fun w' t' _ => ?_
    exact Space.Confined.mono (fun x ⟨r', h1, h2⟩ => ⟨r', List.mem_cons_of_mem _ h1, h2⟩) _ _ (ih w' t')

theorem confined_worker (bs addr step : Nat) (rs : List Req) (w : World σ) (t : NbdBackend.State) :
    nbdSpace.Confined (Handles rs) (workerP S (nbdP bs) addr step rs w) t :=
  Space.Confined.bind (confined_requests _ _ _ _ _ _) fun _ _ _ => confined_nbd_flush _ _

/-! ### What a worker writes -/

theorem copyFrom_size (L : Lawful S.B) (hS : S.Proper) {τ : Type} {D : Backend τ} (addr start length step : Nat)
    (w : World σ) (t : τ) (hi : L.Inv w.srv) {r : Except Err Nat} {w' : World σ} {t' : τ}
    (h : copyFrom S D addr start length step w t = (r, w', t')) : S.B.size w'.srv = S.B.size w.srv := by
  unfold copyFrom at h
  cases hx : D.seek t start with
  | mk x t1 =>
  rw [hx] at h
  cases x with
  | error e => cases h; rfl
  | ok u =>
  simp only at h
  unfold writeTo at h
  simp only at h
  cases hy : getRequest S (some (clientRange (HttpBackend.seek w start).2.client.position length)) (HttpBackend.seek w start).2 with
  | mk r2 w2 =>
  have f := (getRequest_frame L hS _ (HttpBackend.seek w start).2 hi hy).2.2.1.bsize
  rw [hy] at h
  cases r2 with
  | error e => cases h; exact f
  | ok resp =>
    simp only at h
    split at h
    · cases h; exact f
    · split at h <;> (cases h; exact f)

/-- A request that can be handled: it is not empty and lies inside the image and the ticket. -/
structure Fits (S : Server σ) (size : Nat) (r : Req) : Prop where
  op : r.op ≠ .stop
  pos : 0 < r.length
  inside : r.start + r.length ≤ size

/-- The connection of a worker to the server: it serves the image `src`. -/
structure Serves (L : Lawful S.B) (src : Nat → Byte) (size : Nat) (w : World σ) : Prop where
  inv : L.Inv w.srv
  content : L.content w.srv = src
  size : size ≤ min S.ticketSize (S.B.size w.srv)

theorem handle_alone (L : Lawful S.B) (hS : S.Proper) {bs : Nat} (hb : 0 < bs) {strict : Prop} {cap : Nat} {h1 : strict → bs = 1}
    {step : Nat} (hstep : 0 < step) {src : Nat → Byte} {size : Nat} {w : World σ} (hw : Serves L src size w) {r : Req}
    (hr : Fits S size r) {t : NbdBackend.State} (ht : (NbdBackend.lawful bs hb strict cap h1).Inv t) {w' : World σ} {t' : NbdBackend.State}
    (h : run (handleP S (nbdP bs) 0 step w r) t = (.ok w', t')) :
    Serves L src size w' ∧ (NbdBackend.lawful bs hb strict cap h1).Inv t' ∧
      byteAt t'.export_ = perform src r (byteAt t.export_) := by
  have LD := NbdBackend.lawful bs hb strict cap h1
  obtain ⟨op, start, length⟩ := r
  cases op with
  | stop => exact absurd rfl hr.op
  | copy =>
    rw [run_handle_copy (nbd_runs bs)] at h
    cases hx : copyFrom S (NbdBackend.backend bs) 0 start length step w t with
    | mk r1 p =>
    obtain ⟨w1, t1⟩ := p
    rw [hx] at h
    have hsz := copyFrom_size L hS _ _ _ _ _ _ hw.inv hx
    obtain ⟨a1, -, -, a4, a5, a6⟩ := C49_download_exact L hS (nbd_fullWrites bs hb strict cap h1) 0 start length step
      (Nat.zero_mod _) hr.pos hstep w t hw.inv (Nat.le_trans hr.inside hw.size) ht trivial hx
    cases r1 with
    | error e => cases h
    | ok n =>
      cases h
      refine ⟨⟨a4, a6.trans hw.content, by rw [hsz]; exact hw.size⟩, a5, ?_⟩
      have := (a1 n rfl).2
      rw [hw.content] at this
      exact this
  | zero =>
    unfold handleP at h
    simp only at h
    rw [run_bind] at h
    have e1 : run ((nbdP bs).seek start) t = (.ok (), { t with pos := start }) := rfl
    rw [e1] at h
    simp only at h
    rw [run_bind] at h
    have hi1 : (NbdBackend.lawful bs hb strict cap h1).Inv { t with pos := start } := ht
    cases hx : run ((nbdP bs).zero length) { t with pos := start } with
    | mk r1 t1 =>
    rw [hx] at h
    have hx' : NbdBackend.zero { t with pos := start } length = (r1, t1) := hx
    cases r1 with
    | error e => cases h
    | ok n =>
      obtain ⟨a1, -, -, -, a5, -⟩ := (NbdBackend.lawful bs hb strict cap h1).zero { t with pos := start } length _ _ hi1 hr.pos hx'
      have hn := ((nbd_fullWrites bs hb strict cap h1).zero _ _ _ _ hi1 trivial hx').2
      cases h
      refine ⟨hw, a1, ?_⟩
      subst hn
      funext i
      have a5 := congrFun a5 i
      refine Eq.trans a5 ?_
      show store (byteAt t.export_) start (zeros n) i = perform src ⟨.zero, start, n⟩ (byteAt t.export_) i
      unfold perform
      by_cases hc : (Req.mk .zero start n).covers i
      · rw [if_pos hc, store_inside _ _ _ _ hc.1 (by simpa [zeros] using hc.2)]
        simp [zeros]
      · rw [if_neg hc, store_outside]
        simpa [zeros, Req.covers] using hc

/-- The bytes of `T` are what the request stores. -/
def Brings (src T : Nat → Byte) (r : Req) : Prop :=
  ∀ x, r.covers x → (r.op = .zero → T x = 0) ∧ (r.op = .copy → T x = src x)

theorem requests_alone (L : Lawful S.B) (hS : S.Proper) {bs : Nat} (hb : 0 < bs) {strict : Prop} {cap : Nat} {h1 : strict → bs = 1}
    {step : Nat} (hstep : 0 < step) {src T : Nat → Byte} {size : Nat} : ∀ (rs : List Req) {w : World σ}, Serves L src size w →
      (∀ r ∈ rs, Fits S size r) → (∀ r ∈ rs, Brings src T r) →
      ∀ {t : NbdBackend.State}, (NbdBackend.lawful bs hb strict cap h1).Inv t → ∀ {w' : World σ} {t' : NbdBackend.State},
      run (requestsP S (nbdP bs) 0 step rs w) t = (.ok w', t') →
      Serves L src size w' ∧ (NbdBackend.lawful bs hb strict cap h1).Inv t' ∧
        ∀ x, (Handles rs x → byteAt t'.export_ x = T x) ∧ (¬ Handles rs x → byteAt t'.export_ x = byteAt t.export_ x) := by
  intro rs
  induction rs with
  | nil =>
    intro w hw _ _ t ht w' t' h
    cases h
    refine ⟨hw, ht, fun x => ⟨?_, fun _ => rfl⟩⟩
    rintro ⟨_, h, _⟩
    cases h
  | cons r rs ih =>
    intro w hw hf hb' t ht w' t' h
    unfold requestsP at h
    rw [run_bind] at h
    cases hx : run (handleP S (nbdP bs) 0 step w r) t with
    | mk r1 t1 =>
    rw [hx] at h
    cases r1 with
    | error e => cases h
    | ok w1 =>
      simp only at h
      obtain ⟨a1, a2, a3⟩ := handle_alone L hS hb hstep hw (hf r (List.mem_cons_self ..)) ht hx
      obtain ⟨b1, b2, b3⟩ := ih a1 (fun r h => hf r (List.mem_cons_of_mem _ h)) (fun r h => hb' r (List.mem_cons_of_mem _ h)) a2 h
      refine ⟨b1, b2, fun x => ?_⟩
      by_cases hc : Handles rs x
      · refine ⟨fun _ => (b3 x).1 hc, fun hn => absurd ?_ hn⟩
        obtain ⟨r', h1, h2⟩ := hc
        exact ⟨r', List.mem_cons_of_mem _ h1, h2⟩
      · rw [(b3 x).2 hc, a3]
        unfold perform
        by_cases hr : r.covers x
        · refine ⟨fun _ => ?_, fun hn => absurd ⟨r, List.mem_cons_self .., hr⟩ hn⟩
          rw [if_pos hr]
          have hbr := hb' r (List.mem_cons_self ..) x hr
          cases hop : r.op with
          | zero => exact (hbr.1 hop).symm
          | copy => exact (hbr.2 hop).symm
          | stop => exact absurd hop (hf r (List.mem_cons_self ..)).op
        · refine ⟨?_, fun _ => by rw [if_neg hr]⟩
          rintro ⟨r', h1, h2⟩
          rcases List.mem_cons.1 h1 with rfl | h1
          · exact absurd h2 hr
          · exact absurd ⟨r', h1, h2⟩ hc

theorem worker_alone (L : Lawful S.B) (hS : S.Proper) {bs : Nat} (hb : 0 < bs) {strict : Prop} {cap : Nat} {h1 : strict → bs = 1}
    {step : Nat} (hstep : 0 < step) {src T : Nat → Byte} {size : Nat} {rs : List Req} {w : World σ} (hw : Serves L src size w)
    (hf : ∀ r ∈ rs, Fits S size r) (ht : ∀ r ∈ rs, Brings src T r) {t t' : NbdBackend.State}
    (hi : (NbdBackend.lawful bs hb strict cap h1).Inv t) (h : run (workerP S (nbdP bs) 0 step rs w) t = (.ok (), t')) :
    ∀ x, (Handles rs x → byteAt t'.export_ x = T x) ∧ (¬ Handles rs x → byteAt t'.export_ x = byteAt t.export_ x) := by
  unfold workerP at h
  rw [run_bind] at h
  cases hx : run (requestsP S (nbdP bs) 0 step rs w) t with
  | mk r1 t1 =>
  rw [hx] at h
  cases r1 with
  | error e => cases h
  | ok w1 =>
    simp only at h
    obtain ⟨-, a2, a3⟩ := requests_alone L hS hb hstep rs hw hf ht hi hx
    have : byteAt t'.export_ = byteAt t1.export_ := ((NbdBackend.lawful bs hb strict cap h1).flush _ _ a2 h).2.1
    rw [this]
    exact a3

/-! ### A worker with nothing in the way -/

/-- Nothing fails on the side of the server. -/
structure Works (L : Lawful S.B) (size : Nat) (w : World σ) : Prop where
  nets : ∀ n ∈ w.nets, n.Good
  storage : ¬ L.MayFail 0 size

theorem Works.net {L : Lawful S.B} {size : Nat} {w : World σ} (h : Works L size w) : w.net.Good := World.net_good h.nets

theorem mayFail_mono {B : Backend σ} {L : Lawful B} {off n size : Nat} (h : off + n ≤ size) (hm : ¬ L.MayFail 0 size) :
    ¬ L.MayFail off n := by
  rintro ⟨k, h1, h2⟩
  refine hm ⟨k, Nat.le_trans h1 (Nat.mul_le_mul_right _ (Nat.div_le_div_right ?_)), h2⟩
  omega

theorem handle_works (L : Lawful S.B) (hS : S.Proper) {cap : Nat}
    {step : Nat} (hstep : 0 < step) {src : Nat → Byte} {size : Nat} (hcap : size ≤ cap) {w : World σ} (hw : Serves L src size w)
    (hok : Works L size w) {r : Req} (hr : Fits S size r) {t : NbdBackend.State}
    (ht : (NbdBackend.lawful 1 Nat.one_pos True cap (fun _ => rfl)).Inv t) :
    ∃ w' t', run (handleP S (nbdP 1) 0 step w r) t = (.ok w', t') ∧ Works L size w' := by
  obtain ⟨op, start, length⟩ := r
  have hin : start + length ≤ size := hr.inside
  have nofail : ∀ k, k ≤ size → ¬ (NbdBackend.lawful 1 Nat.one_pos True cap (fun _ => rfl)).mayFail k := by
    rintro k hk (h | h)
    · exact h trivial
    · omega
  cases op with
  | stop => exact absurd rfl hr.op
  | copy =>
    rw [run_handle_copy (nbd_runs 1)]
    unfold copyFrom
    have e1 : (NbdBackend.backend 1).seek t start = (.ok (), { t with pos := start }) := rfl
    rw [e1]
    simp only
    unfold writeTo
    generalize hw1 : (HttpBackend.seek w start).2 = w1
    have hp1 : w1.client.position = start := by rw [← hw1]; rfl
    have hs1 : w1.srv = w.srv := by rw [← hw1]; rfl
    have hn1 : w1.nets = w.nets := by rw [← hw1]; rfl
    have hnet : w1.net.Good := by
      have : w1.net = w.net := by unfold World.net; rw [hn1]
      rw [this]; exact hok.net
    have hi1 : L.Inv w1.srv := by rw [hs1]; exact hw.inv
    have hle : start + length ≤ min S.ticketSize (S.B.size w1.srv) := by rw [hs1]; exact Nat.le_trans hin hw.size
    have hwant := clientRange_wanted (avail := min S.ticketSize (S.B.size w1.srv)) (position := start) (length := length) hr.pos (by omega)
    simp only
    rw [hp1]
    cases hy : getRequest S (some (clientRange start length)) w1 with
    | mk r2 w2 =>
    obtain ⟨f1, f2, f3, f4⟩ := getRequest_frame L hS _ w1 hi1 hy
    obtain ⟨-, g2⟩ := getRequest_spec L hS _ _ _ w1 hi1 hwant hy
    have hres := g2 hnet (.inl hr.pos) (mayFail_mono hin hok.storage)
    simp only [reduceCtorEq, if_false] at hres
    rw [hres]
    have hck : checkRange length ⟨206, length, load (L.content w1.srv) start length⟩ = .ok (load (L.content w1.srv) start length) := by
      unfold checkRange
      simp
    simp only [hck]
    cases hz : writerLoop (NbdBackend.backend 1) 0 w1.net.pieces (load (L.content w1.srv) start length) step length { t with pos := start } with
    | mk r3 t3 =>
    obtain ⟨-, -, -, -, c5⟩ := writerLoop_spec (nbd_fullWrites 1 Nat.one_pos True cap (fun _ => rfl)) (Nat.zero_mod _) step hstep length
      _ _ { t with pos := start } ht trivial _ _ hz
    cases r3 with
    | error e =>
      exfalso
      rcases (c5 e rfl).2 with h | ⟨k, h1, h2⟩
      · rw [load_length] at h; omega
      · exact nofail k (Nat.le_trans h1 hin) h2
    | ok u =>
      refine ⟨_, _, rfl, ⟨fun n hn => hok.nets n ?_, hok.storage⟩⟩
      have hn : n ∈ w2.nets := hn
      rw [f2, hn1] at hn
      exact List.mem_of_mem_tail hn
  | zero =>
    unfold handleP
    simp only
    rw [run_bind]
    have e1 : run ((nbdP 1).seek start) t = (.ok (), { t with pos := start }) := rfl
    rw [e1]
    simp only
    rw [run_bind]
    cases hx : run ((nbdP 1).zero length) { t with pos := start } with
    | mk r1 t1 =>
    have hx' : (NbdBackend.backend 1).zero { t with pos := start } length = (r1, t1) := hx
    cases r1 with
    | error e =>
      exfalso
      have := ((NbdBackend.lawful 1 Nat.one_pos True cap (fun _ => rfl)).zero_err { t with pos := start } length e t1 ht hr.pos hx').2.1
      exact nofail _ hin this
    | ok n => exact ⟨w, t1, rfl, hok⟩

theorem requests_work (L : Lawful S.B) (hS : S.Proper) {cap : Nat} {step : Nat} (hstep : 0 < step) {src : Nat → Byte} {size : Nat}
    (hcap : size ≤ cap) : ∀ (rs : List Req) {w : World σ}, Serves L src size w → Works L size w → (∀ r ∈ rs, Fits S size r) →
      ∀ {t : NbdBackend.State}, (NbdBackend.lawful 1 Nat.one_pos True cap (fun _ => rfl)).Inv t →
      ∃ w' t', run (requestsP S (nbdP 1) 0 step rs w) t = (.ok w', t') ∧
        (NbdBackend.lawful 1 Nat.one_pos True cap (fun _ => rfl)).Inv t' := by
  intro rs
  induction rs with
  | nil => intro w _ _ _ t ht; exact ⟨w, t, rfl, ht⟩
  | cons r rs ih =>
    intro w hw hok hf t ht
    obtain ⟨w1, t1, h1, h2⟩ := handle_works L hS hstep hcap hw hok (hf r (List.mem_cons_self ..)) ht
    obtain ⟨a1, a2, -⟩ := handle_alone L hS Nat.one_pos hstep hw (hf r (List.mem_cons_self ..)) ht h1
    obtain ⟨w2, t2, h3, h4⟩ := ih a1 h2 (fun r h => hf r (List.mem_cons_of_mem _ h)) a2
    refine ⟨w2, t2, ?_, h4⟩
    unfold requestsP
    rw [run_bind_ok h1, h3]

theorem worker_works (L : Lawful S.B) (hS : S.Proper) {cap : Nat} {step : Nat} (hstep : 0 < step) {src : Nat → Byte} {size : Nat}
    (hcap : size ≤ cap) (rs : List Req) {w : World σ} (hw : Serves L src size w) (hok : Works L size w) (hf : ∀ r ∈ rs, Fits S size r)
    {t : NbdBackend.State} (ht : (NbdBackend.lawful 1 Nat.one_pos True cap (fun _ => rfl)).Inv t) :
    (run (workerP S (nbdP 1) 0 step rs w) t).1 = .ok () := by
  obtain ⟨w1, t1, h1, h2⟩ := requests_work L hS hstep hcap rs hw hok hf ht
  unfold workerP
  rw [run_bind_ok h1]
  cases hx : run (nbdP 1).flush t1 with
  | mk r2 t2 =>
  cases r2 with
  | ok u => rfl
  | error e =>
    exfalso
    have := ((NbdBackend.lawful 1 Nat.one_pos True cap (fun _ => rfl)).flush_err t1 e t2 h2 hx).2.1
    rcases this with h | h
    · exact h trivial
    · omega

/-! ### All workers -/

/-- No byte is in the requests of two workers. -/
def SeparateWorkers {ι : Type} (rs : ι → List Req) : Prop := ∀ i j x, Handles (rs i) x → Handles (rs j) x → i = j

theorem workers_effect {ι : Type} [DecidableEq ι] (L : Lawful S.B) (hS : S.Proper) {bs : Nat} (hb : 0 < bs) {step : Nat} (hstep : 0 < step)
    {src T : Nat → Byte} {size : Nat} {g : Bytes × Bytes} {loc : ι → NbdBackend.State} {worlds : ι → World σ} {rs : ι → List Req}
    (hbs : ∀ i, (loc i).bs = bs) (hfl : ∀ i, (loc i).canFlush = true) (hw : ∀ i, Serves L src size (worlds i))
    (hf : ∀ i, ∀ r ∈ rs i, Fits S size r) (ht : ∀ i, ∀ r ∈ rs i, Brings src T r) (hs : SeparateWorkers rs)
    {c : Config ι NbdBackend.State (Bytes × Bytes)}
    (h : Conc.Steps nbdMachine (startWorkers S (nbdP bs) 0 step g loc worlds rs) c) (he : ∀ i, c.prog i = .ret (.ok ())) (x : Nat) :
    ((∃ i, Handles (rs i) x) → byteAt c.mem.1 x = T x) ∧ ((∀ i, ¬ Handles (rs i) x) → byteAt c.mem.1 x = byteAt g.1 x) := by
  obtain ⟨t, I⟩ := Space.isolated nbdSpace (fun i => Handles (rs i)) hs _ (fun i => confined_worker _ _ _ _ _ _) h
  refine ⟨?_, fun hn => I.outside x hn⟩
  rintro ⟨i, hx⟩
  have hi : (NbdBackend.lawful bs hb False g.1.length (fun h => h.elim)).Inv (nbdMachine.view (loc i) g) :=
    ⟨hbs i, hfl i, rfl, fun h => h.elim⟩
  have hrun := I.run i
  rw [he i] at hrun
  have := (worker_alone L hS hb hstep (hw i) (hf i) (ht i) hi hrun.symm x).1 hx
  rw [← this]
  exact (I.agree i).content x hx

theorem workers_durable {ι : Type} [DecidableEq ι] {bs step : Nat} {g : Bytes × Bytes} {loc : ι → NbdBackend.State}
    {worlds : ι → World σ} {rs : ι → List Req} (hfl : ∀ i, (loc i).canFlush = true) (hs : SeparateWorkers rs)
    {c : Config ι NbdBackend.State (Bytes × Bytes)}
    (h : Conc.Steps nbdMachine (startWorkers S (nbdP bs) 0 step g loc worlds rs) c) :
    ∀ i, c.prog i = .ret (.ok ()) → ∀ x, (Handles (rs i) x ∨ ∀ j, ¬ Handles (rs j) x) → byteAt c.mem.2 x = byteAt c.mem.1 x :=
  threads_durable (Sp := nbdSpace) (K := fun s => s.canFlush = true) (dur := durableBytes) (fun _ _ h => h) hs hfl
    (fun _ => confined_worker _ _ _ _ _ _) (fun _ => syncing_worker (nbd_syncs bs) _ _ _ _)
    (fun _ => FlushLast.bind fun _ => (nbd_syncs bs).last) h

end Imageio.Download
