import Verif.Lemmas.AuthLog
import Verif.Lemmas.MeasureNF
/-! The progress kept by a ticket is the set of bytes that its operations transferred. -/
namespace Imageio.Auth
open Imageio.Measure Imageio.Spec

theorem ioRanges_append (r : Nat) (a b : List Event) : ioRanges r (a ++ b) = ioRanges r a ++ ioRanges r b := by
  simp [ioRanges]

/-- Byte `x` was transferred by an operation that is still running. -/
def OngoingCov (l : List Op) (x : Int) : Prop := ∃ op ∈ l, (op.offset : Int) ≤ x ∧ x < op.offset + op.done

structure ProgOk (t : Ticket) (io : List (Int × Int)) : Prop where
  nf : NF t.completed
  nonneg : ∀ q ∈ t.completed, 0 ≤ q.start
  cov : ∀ x, Covered io x ↔ Cov t.completed x ∨ OngoingCov t.ongoing x

/-- The invariant. -/
structure Prog (s : State) : Prop where
  ok : ∀ r t, s.tickets r = some t → t.attrs.ops.length = 1 → t.canceled = false → ProgOk t (ioRanges r s.log)
  fresh : ∀ r, s.nextTicket ≤ r → ioRanges r s.log = []

theorem prog_init : Prog init := ⟨by simp [init], by simp [init, ioRanges]⟩

theorem Prog.same {s s' : State} (h : Prog s)
    (ht : ∀ r t', s'.tickets r = some t' → t'.canceled = false → ∃ t, s.tickets r = some t ∧ t.canceled = false ∧
      t'.completed = t.completed ∧ t'.ongoing = t.ongoing ∧ t'.attrs = t.attrs)
    (hl : ∀ r, ioRanges r s'.log = ioRanges r s.log) (hn : s.nextTicket ≤ s'.nextTicket) : Prog s' where
  ok r t' h1 h2 h3 := by
    obtain ⟨t, q1, q2, q3, q4, q5⟩ := ht r t' h1 h3
    rw [hl r]
    have := h.ok r t q1 (by rw [← q5]; exact h2) q2
    exact ⟨by rw [q3]; exact this.nf, by rw [q3]; exact this.nonneg, by rw [q3, q4]; exact this.cov⟩
  fresh r hr := by rw [hl r]; exact h.fresh r (by omega)

theorem ticketSame {s : State} {r0 : Nat} {t0 T : Ticket} (h0 : s.tickets r0 = some t0)
    (hT : T.canceled = false → t0.canceled = false ∧ T.completed = t0.completed ∧ T.ongoing = t0.ongoing ∧ T.attrs = t0.attrs) :
    ∀ r t', upd s.tickets r0 (some T) r = some t' → t'.canceled = false → ∃ t, s.tickets r = some t ∧ t.canceled = false ∧
      t'.completed = t.completed ∧ t'.ongoing = t.ongoing ∧ t'.attrs = t.attrs := by
  intro r t' hr hc
  by_cases hrr : r = r0
  · subst hrr; rw [upd_same] at hr; cases hr
    exact ⟨t0, h0, hT hc⟩
  · rw [upd_other _ _ hrr] at hr
    exact ⟨t', hr, hc, rfl, rfl, rfl⟩

theorem ioRanges_add {r : Nat} {log : List Event} {e : Event} (h : e.range r = none) :
    ioRanges r (log ++ [e]) = ioRanges r log := by
  rw [ioRanges_append]; simp [ioRanges, h]

theorem ioRanges_closed {r : Nat} {log : List Event} {l : List (Nat × Nat)} :
    ioRanges r (log ++ l.map fun p => Event.ctxClosed p.2) = ioRanges r log := by
  rw [ioRanges_append]
  have : ioRanges r (l.map fun p => Event.ctxClosed p.2) = [] := by
    simp only [ioRanges, List.filterMap_eq_nil_iff]
    intro e he
    obtain ⟨p, _, rfl⟩ := List.mem_map.mp he
    rfl
  rw [this, List.append_nil]

theorem covered_append (a b : List (Int × Int)) (x : Int) : Covered (a ++ b) x ↔ Covered a x ∨ Covered b x := by
  simp only [Covered, List.mem_append]
  constructor
  · rintro ⟨p, h | h, hp⟩
    · exact .inl ⟨p, h, hp⟩
    · exact .inr ⟨p, h, hp⟩
  · rintro (⟨p, h, hp⟩ | ⟨p, h, hp⟩)
    · exact ⟨p, .inl h, hp⟩
    · exact ⟨p, .inr h, hp⟩

theorem nodup_id {l : List Op} (h : (l.map (·.id)).Nodup) {a b : Op} (ha : a ∈ l) (hb : b ∈ l) (e : a.id = b.id) : a = b := by
  induction l with
  | nil => cases ha
  | cons x l ih =>
    simp only [List.map_cons, List.nodup_cons] at h
    rcases List.mem_cons.mp ha with ha' | ha' <;> rcases List.mem_cons.mp hb with hb' | hb'
    · rw [ha', hb']
    · exact absurd (List.mem_map.mpr ⟨b, hb', by rw [← e, ha']⟩) h.1
    · exact absurd (List.mem_map.mpr ⟨a, ha', by rw [e, hb']⟩) h.1
    · exact ih h.2 ha' hb'

theorem Prog.step {cfg : Config} {s s' : State} {a : Act} (hi : Inv s) (h : Prog s) (hs : Step cfg s a s') : Prog s' := by
  have refl : ∀ r t', s.tickets r = some t' → t'.canceled = false → ∃ t, s.tickets r = some t ∧ t.canceled = false ∧
      t'.completed = t.completed ∧ t'.ongoing = t.ongoing ∧ t'.attrs = t.attrs :=
    fun r t' ht hc => ⟨t', ht, hc, rfl, rfl, rfl⟩
  cases hs with
  | tick n => exact h.same refl (fun _ => rfl) (Nat.le_refl _)
  | addTicket a =>
    refine ⟨?_, fun r hr => h.fresh r (Nat.le_of_succ_le hr)⟩
    intro r t ht h1 h2
    by_cases hr : r = s.nextTicket
    · subst hr
      have ht' : upd s.tickets s.nextTicket (some (Ticket.new a (seconds cfg s))) s.nextTicket = some t := ht
      rw [upd_same] at ht'; cases ht'
      have : ioRanges s.nextTicket s.log = [] := h.fresh _ (Nat.le_refl _)
      show ProgOk _ (ioRanges s.nextTicket s.log)
      rw [this]
      exact ⟨NF.nil, by simp [Ticket.new], by simp [Ticket.new, Covered, Cov, OngoingCov]⟩
    · have ht' : upd s.tickets s.nextTicket (some (Ticket.new a (seconds cfg s))) r = some t := ht
      rw [upd_other _ _ hr] at ht'
      exact h.ok r t ht' h1 h2
  | extendNone => exact h
  | extend id n r t hst ht =>
    exact h.same (ticketSame ht fun hc => ⟨hc, rfl, rfl, rfl⟩) (fun _ => rfl) (Nat.le_refl _)
  | clear => exact h.same refl (fun _ => rfl) (Nat.le_refl _)
  | refused => exact h.same refl (fun _ => ioRanges_add rfl) (Nat.le_refl _)
  | request => exact h.same refl (fun _ => rfl) (Nat.le_refl _)
  | getContext => exact h.same refl (fun _ => rfl) (Nat.le_refl _)
  | openContext => exact h.same refl (fun _ => ioRanges_add rfl) (Nat.le_refl _)
  | openFailed => exact h.same refl (fun _ => rfl) (Nat.le_refl _)
  | addContextRefused => exact h.same refl (fun _ => ioRanges_add rfl) (Nat.le_refl _)
  | addContext c r k t hp ht hc =>
    exact h.same (ticketSame ht fun hc => ⟨hc, rfl, rfl, rfl⟩) (fun _ => rfl) (Nat.le_refl _)
  | abort => exact h.same refl (fun _ => rfl) (Nat.le_refl _)
  | options => exact h.same refl (fun _ => rfl) (Nat.le_refl _)
  | startRefused => exact h.same refl (fun _ => ioRanges_add rfl) (Nat.le_refl _)
  | startOp c off r k t hp ht hc =>
    refine ⟨?_, fun x hx => ?_⟩
    · intro x u hx h1 h2
      have hx' : upd s.tickets r (some { t with ongoing := ⟨s.nextOp, off, 0, false⟩ :: t.ongoing }) x = some u := hx
      show ProgOk u (ioRanges x (s.log ++ [Event.opStart r]))
      rw [ioRanges_add rfl]
      by_cases hxr : x = r
      · subst hxr; rw [upd_same] at hx'; cases hx'
        have := h.ok x t ht h1 h2
        refine ⟨this.nf, this.nonneg, fun y => ?_⟩
        rw [this.cov y]
        have e : OngoingCov (⟨s.nextOp, off, 0, false⟩ :: t.ongoing) y ↔ OngoingCov t.ongoing y := by
          constructor
          · rintro ⟨op, ho, h1, h2⟩
            rcases List.mem_cons.mp ho with rfl | ho
            · simp only at h1 h2; omega
            · exact ⟨op, ho, h1, h2⟩
          · rintro ⟨op, ho, h⟩
            exact ⟨op, List.mem_cons_of_mem _ ho, h⟩
        show _ ↔ _ ∨ OngoingCov (⟨s.nextOp, off, 0, false⟩ :: t.ongoing) y
        rw [e]
      · rw [upd_other _ _ hxr] at hx'
        exact h.ok x u hx' h1 h2
    · show ioRanges x (s.log ++ [Event.opStart r]) = []
      rw [ioRanges_add rfl]; exact h.fresh x hx
  | io c n r i k t op hp ht ho =>
    obtain ⟨ho1, ho2⟩ := getOp_some ho
    refine ⟨?_, fun x hx => ?_⟩
    · intro x u hx h1 h2
      have hx' : upd s.tickets r (some (t.advance i n)) x = some u := hx
      show ProgOk u (ioRanges x (s.log ++ [Event.io r (op.offset + op.done) n]))
      by_cases hxr : x = r
      · subst hxr; rw [upd_same] at hx'; cases hx'
        have := h.ok x t ht h1 h2
        refine ⟨this.nf, this.nonneg, fun y => ?_⟩
        rw [ioRanges_append, covered_append, this.cov y]
        have e : OngoingCov (t.advance i n).ongoing y ↔ OngoingCov t.ongoing y ∨
            ((op.offset : Int) + op.done ≤ y ∧ y < op.offset + op.done + n) := by
          constructor
          · rintro ⟨o, hm, q1, q2⟩
            simp only [Ticket.advance, List.mem_map] at hm
            obtain ⟨o', hm', rfl⟩ := hm
            by_cases hid : o'.id = i
            · have := nodup_id (hi.opsNodup _ _ ht) hm' ho1 (by rw [hid, ho2])
              subst this
              rw [if_pos hid] at q1 q2
              simp only at q1 q2
              by_cases hy : y < (o'.offset : Int) + o'.done
              · exact .inl ⟨o', hm', q1, hy⟩
              · exact .inr ⟨by omega, by omega⟩
            · rw [if_neg hid] at q1 q2
              exact .inl ⟨o', hm', q1, q2⟩
          · rintro (⟨o, hm, q1, q2⟩ | ⟨q1, q2⟩)
            · refine ⟨_, List.mem_map.mpr ⟨o, hm, rfl⟩, ?_⟩
              split
              · simp only; omega
              · exact ⟨q1, q2⟩
            · refine ⟨_, List.mem_map.mpr ⟨op, ho1, rfl⟩, ?_⟩
              rw [if_pos ho2]
              simp only; omega
        rw [e, or_assoc]
        have e2 : Covered (ioRanges x [Event.io x (op.offset + op.done) n]) y ↔
            ((op.offset : Int) + op.done ≤ y ∧ y < op.offset + op.done + n) := by
          simp [ioRanges, Event.range, Covered]
        rw [e2]
        rfl
      · rw [upd_other _ _ hxr] at hx'
        rw [ioRanges_add (by simp only [Event.range]; rw [if_neg (fun e => hxr e.symm)])]
        exact h.ok x u hx' h1 h2
    · show ioRanges x (s.log ++ [Event.io r (op.offset + op.done) n]) = []
      have hr := hi.fresh r t ht
      have hx' : s.nextTicket ≤ x := hx
      rw [ioRanges_add (by simp only [Event.range]; rw [if_neg (by omega)])]; exact h.fresh x hx
  | checkGo => exact h.same refl (fun _ => rfl) (Nat.le_refl _)
  | checkStop => exact h.same refl (fun _ => rfl) (Nat.le_refl _)
  | endRunning => exact h.same refl (fun _ => rfl) (Nat.le_refl _)
  | endChecking => exact h.same refl (fun _ => rfl) (Nat.le_refl _)
  | removeOp c r i k t op hp ht ho =>
    obtain ⟨ho1, ho2⟩ := getOp_some ho
    refine ⟨?_, fun x hx => ?_⟩
    · intro x u hx h1 h2
      have hx' : upd s.tickets r (some (t.removeOperation op).2) x = some u := hx
      show ProgOk u (ioRanges x (s.log ++ [Event.opEnd r _]))
      rw [ioRanges_add rfl]
      by_cases hxr : x = r
      · subst hxr; rw [upd_same] at hx'; cases hx'
        obtain ⟨f1, f2, _⟩ := removeOperation_fields t op
        rw [f1] at h1; rw [f2] at h2
        have := h.ok x t ht h1 h2
        have key : (t.removeOperation op).2.completed = add t.completed ⟨op.offset, op.offset + op.done⟩ ∧
            (t.removeOperation op).2.ongoing = t.ongoing.filter (·.id ≠ op.id) := by
          simp [Ticket.removeOperation, h1, h2]
        refine ⟨?_, ?_, fun y => ?_⟩
        · rw [key.1]; exact add_nf _ _ this.nf (by show (op.offset : Int) ≤ op.offset + op.done; omega)
        · rw [key.1]
          -- a bound that is large enough
          obtain ⟨N, hN⟩ : ∃ N : Int, Bnd N t.completed ∧ (op.offset : Int) + op.done ≤ N := by
            have : ∀ l : List Range, (∀ q ∈ l, 0 ≤ q.start) → ∃ N : Int, Bnd N l := by
              intro l
              induction l with
              | nil => exact fun _ => ⟨0, by simp [Bnd]⟩
              | cons q l ih =>
                intro hq
                obtain ⟨N, hN⟩ := ih (fun p hp => hq p (List.mem_cons_of_mem _ hp))
                refine ⟨max N q.stop, fun p hp => ?_⟩
                rcases List.mem_cons.mp hp with rfl | hp
                · exact ⟨hq p List.mem_cons_self, by omega⟩
                · have := hN p hp
                  exact ⟨this.1, by omega⟩
            obtain ⟨N, hN⟩ := this _ ‹ProgOk t _›.nonneg
            refine ⟨max N (op.offset + op.done), fun p hp => ?_, by omega⟩
            have := hN p hp
            exact ⟨this.1, by omega⟩
          intro q hq
          exact (add_bnd N _ _ hN.1 ⟨by show (0 : Int) ≤ op.offset; omega, hN.2⟩ q hq).1
        · rw [this.cov y, key.1, key.2, add_cov _ _ this.nf y]
          have e : OngoingCov t.ongoing y ↔ OngoingCov (t.ongoing.filter (·.id ≠ op.id)) y ∨
              ((op.offset : Int) ≤ y ∧ y < op.offset + op.done) := by
            constructor
            · rintro ⟨o, hm, q⟩
              by_cases hid : o.id = op.id
              · have := nodup_id (hi.opsNodup _ _ ht) hm ho1 hid
                subst this; exact .inr q
              · exact .inl ⟨o, List.mem_filter.mpr ⟨hm, by simpa using hid⟩, q⟩
            · rintro (⟨o, hm, q⟩ | q)
              · exact ⟨o, (List.mem_filter.mp hm).1, q⟩
              · exact ⟨op, ho1, q⟩
          rw [e]
          grind
      · rw [upd_other _ _ hxr] at hx'
        exact h.ok x u hx' h1 h2
    · show ioRanges x (s.log ++ [Event.opEnd r _]) = []
      rw [ioRanges_add rfl]; exact h.fresh x hx
  | touch c r t hp ht =>
    exact h.same (ticketSame ht fun hc => ⟨hc, rfl, rfl, rfl⟩) (fun _ => rfl) (Nat.le_refl _)
  | closeDone => exact h.same refl (fun _ => rfl) (Nat.le_refl _)
  | closeNone => exact h.same refl (fun _ => rfl) (Nat.le_refl _)
  | closeContext c u r rest t k hp hr ht hk =>
    exact h.same (ticketSame ht fun hc => ⟨hc, rfl, rfl, rfl⟩) (fun _ => ioRanges_add rfl) (Nat.le_refl _)
  | delStartNone => exact h.same refl (fun _ => ioRanges_add rfl) (Nat.le_refl _)
  | delStart => exact h.same refl (fun _ => rfl) (Nat.le_refl _)
  | delCancelUnused d id r t hd ht ho =>
    obtain ⟨f1, f2, f3, f4, f5, f6, f7, f8, f9⟩ := closeAll_fields t s
    refine h.same ?_ (fun x => ?_) (by show s.nextTicket ≤ (s.closeAll t).nextTicket; rw [f3]; exact Nat.le_refl _)
    · show ∀ x u, upd (s.closeAll t).tickets r _ x = some u → _
      rw [f2]
      exact ticketSame ht fun hc => by cases hc
    · show ioRanges x (s.closeAll t).log = _
      rw [f9]; exact ioRanges_closed
  | delCancelWait d id r t hd ht ho hc =>
    exact h.same (ticketSame ht fun hc => by cases hc) (fun _ => rfl) (Nat.le_refl _)
  | delCancelNoWait d id r t hd ht ho hc =>
    exact h.same (ticketSame ht fun hc => by cases hc) (fun _ => ioRanges_add rfl) (Nat.le_refl _)
  | delWake => exact h.same refl (fun _ => rfl) (Nat.le_refl _)
  | delTimeout => exact h.same refl (fun _ => ioRanges_add rfl) (Nat.le_refl _)
  | delClose d id r t hd ht =>
    obtain ⟨f1, f2, f3, f4, f5, f6, f7, f8, f9⟩ := closeAll_fields t s
    refine h.same ?_ (fun x => ?_) (by show s.nextTicket ≤ (s.closeAll t).nextTicket; rw [f3]; exact Nat.le_refl _)
    · show ∀ x u, (s.closeAll t).tickets x = some u → _
      rw [f2]; exact refl
    · show ioRanges x (s.closeAll t).log = _
      rw [f9]; exact ioRanges_closed
  | delEraseNone => exact h.same refl (fun _ => ioRanges_add rfl) (Nat.le_refl _)
  | delErase => exact h.same refl (fun _ => ioRanges_add rfl) (Nat.le_refl _)

theorem Reachable.prog {cfg : Config} {s : State} (h : Reachable cfg s) : Prog s :=
  Reachable.induction (cfg := cfg) prog_init (fun _ _ _ _ hi hp hs => hp.step hi hs) h

theorem filter_range_le {p : Nat → Bool} {a b : Nat} (h : a ≤ b) (hp : ∀ x, p x = true → x < a) :
    ((List.range b).filter p).length = ((List.range a).filter p).length := by
  induction b with
  | zero => have : a = 0 := by omega
            subst this; rfl
  | succ b ih =>
    by_cases hab : a = b + 1
    · subst hab; rfl
    · rw [List.range_succ, List.filter_append, List.length_append, ih (by omega)]
      have : p b = false := by
        cases hb : p b with
        | false => rfl
        | true => have := hp b hb; omega
      simp [this]

theorem countCovered_le {a b : Nat} {l : List (Int × Int)} (h : a ≤ b) (hl : ∀ x, Covered l x → x < a) :
    countCovered b l = countCovered a l := by
  apply filter_range_le h
  intro x hx
  have := hl x (by simpa using hx)
  omega

theorem bnd_exists (l : List Range) (h : ∀ q ∈ l, 0 ≤ q.start) : ∃ N : Nat, Bnd N l := by
  induction l with
  | nil => exact ⟨0, by simp [Bnd]⟩
  | cons q l ih =>
    obtain ⟨N, hN⟩ := ih (fun p hp => h p (List.mem_cons_of_mem _ hp))
    refine ⟨max N q.stop.toNat, fun p hp => ?_⟩
    rcases List.mem_cons.mp hp with rfl | hp
    · exact ⟨h p List.mem_cons_self, by omega⟩
    · have := hN p hp
      exact ⟨this.1, by omega⟩

/-- The reported value, for a ticket whose progress is tracked. -/
theorem transferred_eq {t : Ticket} {io : List (Int × Int)} (h : ProgOk t io) (h1 : t.attrs.ops.length = 1) (N : Nat)
    (hN : ∀ x, Covered io x → x < N) : t.transferred = some (.ok (countCovered N io : Int)) := by
  unfold Ticket.transferred
  rw [if_neg (by omega)]
  simp only [Option.some.injEq]
  generalize ho : (t.ongoing.map fun op => (⟨op.offset, op.offset + op.done⟩ : Range)) = og
  have hog : ∀ q ∈ og, 0 ≤ q.start ∧ q.start ≤ q.stop := by
    intro q hq
    rw [← ho] at hq
    obtain ⟨op, _, rfl⟩ := List.mem_map.mp hq
    show (0 : Int) ≤ op.offset ∧ (op.offset : Int) ≤ op.offset + op.done
    omega
  have hogc : ∀ x, Cov og x ↔ OngoingCov t.ongoing x := by
    intro x
    rw [← ho]
    simp only [Cov, OngoingCov, List.mem_map]
    constructor
    · rintro ⟨q, ⟨op, hm, rfl⟩, hq⟩; exact ⟨op, hm, hq⟩
    · rintro ⟨op, hm, hq⟩; exact ⟨_, ⟨op, hm, rfl⟩, hq⟩
  obtain ⟨n1, b1⟩ := bnd_exists t.completed h.nonneg
  obtain ⟨n2, b2⟩ := bnd_exists og fun q hq => (hog q hq).1
  have mono : ∀ (a b : Nat) l, a ≤ b → Bnd (a : Int) l → Bnd (b : Int) l := by
    intro a b l hab hl q hq
    have := hl q hq
    exact ⟨this.1, by omega⟩
  let M := max N (max n1 n2)
  have hb := update_bnd M _ _ (mono n1 M _ (by omega) b1) (mono n2 M _ (by omega) b2)
  have hnf := update_nf t.completed og h.nf.wf (fun q hq => (hog q hq).2)
  unfold sum
  rw [sumLoop_eq M _ hnf hb]
  congr 2
  rw [← countCovered_le (a := N) (b := M) (by omega) hN]
  apply countCovered_congr
  intro x _ _
  rw [covered_toPairs, update_cov, h.cov x, hogc x]

end Imageio.Auth
