import Verif.Lemmas.NbdCopy
namespace Imageio.NbdCopy

/-! ### Progress of the threads -/

/-- A blocked copy: the writer ended after a failure, and the reader waits for room in `requests`. -/
def Blocked (c : Cfg) (s : St) : Prop :=
  s.wr = .dead ∧ c.depth * 2 ≤ s.reqs.length ∧
  ((∃ r todo rest, s.rd = .put r todo rest) ∨ s.rd = .flush ∨ s.rd = .last)

theorem step_or_blocked {c : Cfg} {size : Nat} {dst0 : Nat → Byte} (hd : 0 < c.depth) {s : St}
    (h : Inv c size dst0 s) (hn : ∀ e, s.rd ≠ .done e) : (∃ s', Step c s s') ∨ Blocked c s := by
  obtain ⟨he, hg, ho, -, -, ht⟩ := h
  have he := he.some_iff
  have hg := hg.rd
  obtain ⟨-, o2, o3, o4, o5, o6⟩ := ho
  obtain ⟨t1, t2, t3, t4, -, -⟩ := ht
  have hlen := bufs_length s.bufs
  -- the writer
  have writer : s.wr ≠ .getting → s.wr ≠ .dead → s.wr ≠ .stopped → ∃ s', Step c s s' := by
    intro w1 w2 w3
    have hb : bufsNone s.bufs = 0 := (o5 w2).1
    cases hw : s.wr with
    | getting => exact absurd hw w1
    | dead => exact absurd hw w2
    | stopped => exact absurd hw w3
    | working r =>
      cases hop : r.op with
      | write b => exact ⟨_, .write hw hop⟩
      | zero => exact ⟨_, .zero hw hop⟩
      | flush => exact ⟨_, .flush hw hop⟩
    | giveBack b r =>
      refine ⟨_, .giveBack hw ?_⟩
      simp only [total, hw, Wr.bufs] at o2
      omega
    | report r => exact ⟨_, .report hw⟩
    | raised e => exact ⟨_, .setError hw⟩
    | signal =>
      refine ⟨_, .signal hw ?_⟩
      simp only [total] at o2
      omega
  -- the reader, when it does not wait
  have reader : (∃ rest, s.rd = .next rest) ∨ (∃ b todo rest, s.rd = .got b todo rest) ∨
      (∃ todo rest, s.rd = .loop true todo rest) ∨ (∃ rest, s.rd = .loop false 0 rest) → ∃ s', Step c s s' := by
    rintro (⟨rest, hr⟩ | ⟨b, todo, rest, hr⟩ | ⟨todo, rest, hr⟩ | ⟨rest, hr⟩)
    · rcases rest with _ | ⟨_ | ⟨l, z⟩, rest⟩
      · exact ⟨_, .extEnd hr⟩
      · exact ⟨_, .extNone hr⟩
      · exact ⟨_, .ext hr⟩
    · cases hx : s.error with
      | some e => exact ⟨_, .dataStop hr hx⟩
      | none =>
        cases b with
        | none => exact ⟨_, .noBuf hr hx⟩
        | some b => exact ⟨_, .read hr hx⟩
    · rcases todo with _ | todo
      · exact ⟨_, .loopEnd hr⟩
      · cases hx : s.error with
        | some e => exact ⟨_, .zeroStop hr (by omega) hx⟩
        | none => exact ⟨_, .zeroStep hr (by omega) hx⟩
    · exact ⟨_, .loopEnd hr⟩
  by_cases hw : s.wr = .getting ∨ s.wr = .dead ∨ s.wr = .stopped
  case neg => exact .inl (writer (by simp_all) (by simp_all) (by simp_all))
  cases hr : s.rd with
  | done e => exact absurd hr (hn e)
  | next rest => exact .inl (reader (.inl ⟨_, hr⟩))
  | got b todo rest => exact .inl (reader (.inr (.inl ⟨_, _, _, hr⟩)))
  | loop z todo rest =>
    cases z with
    | true => exact .inl (reader (.inr (.inr (.inl ⟨_, _, hr⟩))))
    | false =>
      rcases todo with _ | todo
      · exact .inl (reader (.inr (.inr (.inr ⟨_, hr⟩))))
      · left
        cases hb : s.bufs with
        | cons b bs => exact ⟨_, .getBuf hr (by omega) hb⟩
        | nil =>
          rcases hw with hw | hw | hw
          · rcases hq : s.reqs with _ | ⟨_ | r, rs⟩
            · have := o3 (by simp [hw, Wr.live]) (by simp [hr]) (by simp [hr])
              simp [total, hb, hq, hw, hr, bufsSome, reqsBufs, Wr.bufs, Rd.bufs] at this
              omega
            · exact ⟨_, .getNone hw hq⟩
            · exact ⟨_, .get hw hq⟩
          · have := o6 hw (.inl ⟨_, _, _, hr⟩)
            simp [hb, bufsNone] at this
          · exact absurd hw (t1 (by simp [hr]) (by simp [hr])).2
  | join =>
    left
    rcases hw with hw | hw | hw
    · have := t2 hr (by
        cases hx : s.error with
        | none => rfl
        | some e => simp [hw, hx] at he) (by simp [hw])
      rcases hq : s.reqs with _ | ⟨_ | r, rs⟩
      · simp [hq] at this
      · exact ⟨_, .getNone hw hq⟩
      · exact ⟨_, .get hw hq⟩
    · exact ⟨_, .joined hr (.inl hw)⟩
    · exact ⟨_, .joined hr (.inr hw)⟩
  | put r todo rest =>
    by_cases hq : s.reqs.length < c.depth * 2
    · exact .inl ⟨_, .put hr hq⟩
    · rcases hw with hw | hw | hw
      · left
        rcases hq : s.reqs with _ | ⟨_ | r, rs⟩
        · simp [hq] at *; omega
        · exact ⟨_, .getNone hw hq⟩
        · exact ⟨_, .get hw hq⟩
      · exact .inr ⟨hw, by omega, .inl ⟨_, _, _, hr⟩⟩
      · exact absurd hw (t1 (by simp [hr]) (by simp [hr])).2
  | flush =>
    by_cases hq : s.reqs.length < c.depth * 2
    · exact .inl ⟨_, .putFlush hr hq⟩
    · rcases hw with hw | hw | hw
      · left
        rcases hq : s.reqs with _ | ⟨_ | r, rs⟩
        · simp [hq] at *; omega
        · exact ⟨_, .getNone hw hq⟩
        · exact ⟨_, .get hw hq⟩
      · exact .inr ⟨hw, by omega, .inr (.inl hr)⟩
      · exact absurd hw (t1 (by simp [hr]) (by simp [hr])).2
  | last =>
    by_cases hq : s.reqs.length < c.depth * 2
    · exact .inl ⟨_, .putLast hr hq⟩
    · rcases hw with hw | hw | hw
      · left
        rcases hq : s.reqs with _ | ⟨_ | r, rs⟩
        · simp [hq] at *; omega
        · exact ⟨_, .getNone hw hq⟩
        · exact ⟨_, .get hw hq⟩
      · exact .inr ⟨hw, by omega, .inr (.inr hr)⟩
      · exact absurd hw (t1 (by simp [hr]) (by simp [hr])).2

/-- In a blocked copy no thread can run. -/
theorem blocked_stuck {c : Cfg} {s s' : St} (h : Blocked c s) (hs : Step c s s') : False := by
  obtain ⟨hw, hq, hr⟩ := h
  cases hs <;> simp_all <;> omega

/-! ### Termination -/

def extsCost : List Ext → Nat
  | [] => 20
  | some (l, _) :: rest => 10 * l + 2 + extsCost rest
  | none :: rest => 2 + extsCost rest

def Rd.cost : Rd → Nat
  | .next rest => extsCost rest
  | .loop _ todo rest => 10 * todo + 1 + extsCost rest
  | .got _ todo rest => 10 * todo + extsCost rest
  | .put _ todo rest => 10 * todo - 1 + extsCost rest
  | .flush => 19
  | .last => 12
  | .join => 5
  | .done _ => 0

def Wr.cost : Wr → Nat
  | .getting | .dead | .stopped => 0
  | .signal => 1
  | .raised _ => 2
  | .report _ => 3
  | .giveBack .. => 4
  | .working _ => 5

def cost (s : St) : Nat := s.rd.cost + s.wr.cost + 6 * s.reqs.length

theorem extsCost_pos (rest : List Ext) : 20 ≤ extsCost rest := by
  induction rest with
  | nil => simp [extsCost]
  | cons a rest ih => rcases a with _ | ⟨l, z⟩ <;> simp only [extsCost] <;> omega

theorem cost_step {c : Cfg} {size : Nat} {s s' : St} (hg : Geo c size s) (hs : Step c s s') :
    cost s' < cost s := by
  have hg := hg.rd
  cases hs
  case put r todo rest hr hq =>
    simp only [hr, Rd.Geo] at hg
    simp only [cost, hr, Rd.cost, List.length_append, List.length_singleton]
    omega
  case ext hr => simp only [cost, hr, Rd.cost, extsCost]; omega
  case extNone hr => simp only [cost, hr, Rd.cost, extsCost]; omega
  case extFail rest e hr => have := extsCost_pos rest; simp only [cost, hr, Rd.cost]; omega
  case extEnd hr => simp only [cost, hr, Rd.cost, extsCost]; omega
  case loopEnd hr => simp only [cost, hr, Rd.cost]; omega
  case zeroStop rest _ hr _ _ => have := extsCost_pos rest; simp only [cost, hr, Rd.cost]; omega
  case zeroStep hr _ _ => simp only [cost, hr, Rd.cost]; omega
  case getBuf hr _ _ => simp only [cost, hr, Rd.cost]; omega
  case dataStop rest _ hr _ => have := extsCost_pos rest; simp only [cost, hr, Rd.cost]; omega
  case noBuf rest hr _ => have := extsCost_pos rest; simp only [cost, hr, Rd.cost]; omega
  case read hr _ => simp only [hr, Rd.Geo] at hg; simp only [cost, hr, Rd.cost]; omega
  case readFail rest _ _ hr _ _ => have := extsCost_pos rest; simp only [cost, hr, Rd.cost]; omega
  case putFlush hr hq => simp only [cost, hr, Rd.cost, List.length_append, List.length_singleton]; omega
  case putLast hr hq => simp only [cost, hr, Rd.cost, List.length_append, List.length_singleton]; omega
  case joined hr _ => simp only [cost, hr, Rd.cost]; omega
  case get hw hq => simp only [cost, hw, hq, Wr.cost, List.length_cons]; omega
  case getNone hw hq => simp only [cost, hw, hq, Wr.cost, List.length_cons]; omega
  all_goals simp only [cost, *, Wr.cost]; omega

/-! ### The progress -/

def reqsLen : List (Option Req) → Nat
  | [] => 0
  | some r :: rs => r.length + reqsLen rs
  | none :: rs => reqsLen rs

theorem reqsLen_append (x y : List (Option Req)) : reqsLen (x ++ y) = reqsLen x + reqsLen y := by
  induction x with
  | nil => simp [reqsLen]
  | cons a x ih => cases a <;> simp [reqsLen, ih]; omega

def Wr.len : Wr → Nat
  | .working r => r.length
  | .giveBack _ r => r.length
  | .report r => r.length
  | _ => 0

theorem progress_inv {c : Cfg} {exts : List Ext} {dst0 : Nat → Byte} {s : St} (h : Reachable c exts dst0 s)
    : s.progress + s.wr.len + reqsLen s.reqs ≤ s.pos ∧
      (s.wr.live = true → s.progress + s.wr.len + reqsLen s.reqs = s.pos) := by
  induction h with
  | init => simp [St.init, reqsLen, Wr.len]
  | @step s s' h hs ih =>
    obtain ⟨i1, i2⟩ := ih
    cases hs <;> grind [reqsLen, reqsLen_append, Wr.len, Wr.live]

/-! ### Images without zero extents -/

def NoZero : List Ext → Prop
  | [] => True
  | some (_, z) :: rest => z = false ∧ NoZero rest
  | none :: rest => NoZero rest

structure DataOnly (s : St) : Prop where
  next : ∀ rest, s.rd = .next rest → NoZero rest
  loop : ∀ z todo rest, s.rd = .loop z todo rest → z = false ∧ NoZero rest
  got : ∀ b todo rest, s.rd = .got b todo rest → NoZero rest
  put : ∀ r todo rest, s.rd = .put r todo rest → r.op.bufs = 1 ∧ NoZero rest
  reqs : (∀ e, s.rd ≠ .done e) → s.rd ≠ .join → s.reqs.length ≤ reqsBufs s.reqs + (if s.rd = .last then 1 else 0)

theorem op_bufs_le (o : Op) : o.bufs ≤ 1 := by cases o <;> simp [Op.bufs]

theorem dataOnly {c : Cfg} {exts : List Ext} {dst0 : Nat → Byte} (hz : NoZero exts) {s : St}
    (h : Reachable c exts dst0 s) : DataOnly s := by
  induction h with
  | init => exact ⟨by simp [St.init, hz], by simp [St.init], by simp [St.init], by simp [St.init], by simp [St.init]⟩
  | @step s s' h hs ih =>
    obtain ⟨i1, i2, i3, i4, i5⟩ := ih
    cases hs <;> constructor <;>
      grind [NoZero, reqsBufs, reqsBufs_append, Op.bufs, op_bufs_le]

theorem not_blocked {c : Cfg} {s : St} (hd : 2 ≤ c.depth) (ho : total s ≤ c.depth) (h : DataOnly s) :
    ¬ Blocked c s := by
  rintro ⟨hw, hq, hr⟩
  obtain ⟨-, -, -, i4, i5⟩ := h
  simp only [total] at ho
  rcases hr with ⟨r, todo, rest, hr⟩ | hr | hr
  · have := i5 (by simp [hr]) (by simp [hr])
    have h4 := (i4 _ _ _ hr).1
    simp [hr, Rd.bufs, h4] at this ho
    omega
  · have := i5 (by simp [hr]) (by simp [hr])
    simp [hr] at this ho
    omega
  · have := i5 (by simp [hr]) (by simp [hr])
    simp [hr] at this ho
    omega

end Imageio.NbdCopy
