import Verif.Model.Auth
namespace Imageio.Auth
open Imageio.Measure

@[simp] theorem upd_same {α β : Type} [DecidableEq α] (f : α → β) (a : α) (b : β) : upd f a b a = b := by simp [upd]

theorem upd_other {α β : Type} [DecidableEq α] (f : α → β) {a x : α} (b : β) (h : x ≠ a) : upd f a b x = f x := by
  simp [upd, h]

/-- The operation a connection thread is running. -/
def Pc.busy : Pc → Option (Nat × Nat × Nat)
  | .running r i k => some (r, i, k)
  | .checking r i k => some (r, i, k)
  | .ended r i k => some (r, i, k)
  | _ => none

/-- The steps of the model, one constructor for every way a step can go. -/
inductive Step (cfg : Config) (s : State) : Act → State → Prop
  | tick (n : Nat) : Step cfg s (.tick n) { s with now := s.now + n }
  | addTicket (a : Attrs) : Step cfg s (.addTicket a)
      { s with tickets := upd s.tickets s.nextTicket (some (Ticket.new a (seconds cfg s))),
               nextTicket := s.nextTicket + 1, store := upd s.store a.uuid (some s.nextTicket) }
  | extendNone (id : String) (n : Nat) (h : s.store id = none) : Step cfg s (.extend id n) s
  | extend (id : String) (n r : Nat) (t : Ticket) (h : s.store id = some r) (ht : s.tickets r = some t) :
      Step cfg s (.extend id n) (s.setTicket r (t.extend (seconds cfg s) n))
  | clear : Step cfg s .clear { s with store := fun _ => none }
  | refused (c : Nat) (id op e : String) (hc : (s.conns c).closed = false) (hp : (s.conns c).pc = .idle)
      (ha : authorize cfg s id op = .error e) : Step cfg s (.request c id op) (s.event (.refused c))
  | request (c : Nat) (id op : String) (r : Nat) (hc : (s.conns c).closed = false) (hp : (s.conns c).pc = .idle)
      (ha : authorize cfg s id op = .ok r) : Step cfg s (.request c id op) (s.goto c (.authorized r))
  | getContext (c r k : Nat) (t : Ticket) (hp : (s.conns c).pc = .authorized r) (ht : s.tickets r = some t)
      (hk : t.getContext c = some k) : Step cfg s (.getContext c) (s.goto c (.ready r k))
  | openContext (c r : Nat) (t : Ticket) (hp : (s.conns c).pc = .authorized r) (ht : s.tickets r = some t)
      (hk : t.getContext c = none) : Step cfg s (.getContext c)
        ({ s with ctxs := upd s.ctxs s.nextCtx ⟨c, r, t.attrs.ops.contains "write", false⟩, nextCtx := s.nextCtx + 1,
                  log := s.log ++ [Event.ctxOpened c r s.nextCtx] }.goto c (.opened r s.nextCtx))
  | openFailed (c r : Nat) (hp : (s.conns c).pc = .authorized r) : Step cfg s (.openFailed c) (s.goto c .idle)
  | addContextRefused (c r k : Nat) (t : Ticket) (hp : (s.conns c).pc = .opened r k) (ht : s.tickets r = some t)
      (hc : t.canceled = true) : Step cfg s (.addContext c) ((s.closeCtx k).goto c .idle)
  | addContext (c r k : Nat) (t : Ticket) (hp : (s.conns c).pc = .opened r k) (ht : s.tickets r = some t)
      (hc : t.canceled = false) : Step cfg s (.addContext c)
        { s.setTicket r { t with connections := (c, k) :: t.connections.filter (·.1 ≠ c) } with
          conns := upd s.conns c { s.conns c with pc := .ready r k, registered := (t.attrs.uuid, r) :: (s.conns c).registered.filter (·.1 ≠ t.attrs.uuid) } }
  | abort (c r k : Nat) (hp : (s.conns c).pc = .ready r k) : Step cfg s (.abort c) (s.goto c .idle)
  | options (c r k : Nat) (hp : (s.conns c).pc = .ready r k) : Step cfg s (.options c) (s.goto c (.touching r))
  | startRefused (c off r k : Nat) (t : Ticket) (hp : (s.conns c).pc = .ready r k) (ht : s.tickets r = some t)
      (hc : t.canceled = true) : Step cfg s (.startOp c off) ((s.event (.refused c)).goto c .idle)
  | startOp (c off r k : Nat) (t : Ticket) (hp : (s.conns c).pc = .ready r k) (ht : s.tickets r = some t)
      (hc : t.canceled = false) : Step cfg s (.startOp c off)
        (({ s.setTicket r { t with ongoing := ⟨s.nextOp, off, 0, false⟩ :: t.ongoing } with nextOp := s.nextOp + 1 }.event
          (.opStart r)).goto c (.running r s.nextOp k))
  | io (c n r i k : Nat) (t : Ticket) (op : Op) (hp : (s.conns c).pc = .running r i k) (ht : s.tickets r = some t)
      (ho : t.getOp i = some op) : Step cfg s (.io c n)
        (((s.setTicket r (t.advance i n)).event (.io r (op.offset + op.done) n)).goto c (.checking r i k))
  | checkGo (c r i k : Nat) (t : Ticket) (op : Op) (hp : (s.conns c).pc = .checking r i k) (ht : s.tickets r = some t)
      (ho : t.getOp i = some op) (hc : op.canceled = false) : Step cfg s (.check c) (s.goto c (.running r i k))
  | checkStop (c r i k : Nat) (t : Ticket) (op : Op) (hp : (s.conns c).pc = .checking r i k) (ht : s.tickets r = some t)
      (ho : t.getOp i = some op) (hc : op.canceled = true) : Step cfg s (.check c) (s.goto c (.ended r i k))
  | endRunning (c r i k : Nat) (hp : (s.conns c).pc = .running r i k) : Step cfg s (.endOp c) (s.goto c (.ended r i k))
  | endChecking (c r i k : Nat) (hp : (s.conns c).pc = .checking r i k) : Step cfg s (.endOp c) (s.goto c (.ended r i k))
  | removeOp (c r i k : Nat) (t : Ticket) (op : Op) (hp : (s.conns c).pc = .ended r i k) (ht : s.tickets r = some t)
      (ho : t.getOp i = some op) : Step cfg s (.removeOp c)
        (((s.setTicket r (t.removeOperation op).2).event (.opEnd r (t.removeOperation op).1)).goto c
          (if (t.removeOperation op).1 then .idle else .touching r))
  | touch (c r : Nat) (t : Ticket) (hp : (s.conns c).pc = .touching r) (ht : s.tickets r = some t) :
      Step cfg s (.touch c) ((s.setTicket r (t.touch (seconds cfg s))).goto c .idle)
  | closeDone (c : Nat) (hp : (s.conns c).pc = .idle) (hr : (s.conns c).registered = []) :
      Step cfg s (.closeContext c) { s with conns := upd s.conns c { s.conns c with closed := true } }
  | closeNone (c : Nat) (u : String) (r : Nat) (rest : List (String × Nat)) (t : Ticket) (hp : (s.conns c).pc = .idle)
      (hr : (s.conns c).registered = (u, r) :: rest) (ht : s.tickets r = some t) (hk : t.connections.lookup c = none) :
      Step cfg s (.closeContext c) { s with conns := upd s.conns c { s.conns c with registered := rest, closed := true } }
  | closeContext (c : Nat) (u : String) (r : Nat) (rest : List (String × Nat)) (t : Ticket) (k : Nat)
      (hp : (s.conns c).pc = .idle) (hr : (s.conns c).registered = (u, r) :: rest) (ht : s.tickets r = some t)
      (hk : t.connections.lookup c = some k) :
      Step cfg s (.closeContext c)
        ((({ s with conns := upd s.conns c { s.conns c with registered := rest, closed := true } }).closeCtx k).setTicket r
          { t with connections := t.connections.filter (·.1 ≠ c) })
  | delStartNone (d : Nat) (id : String) (h : s.store id = none)
      (hd : ∀ i r, s.dels d ≠ .waiting i r ∧ s.dels d ≠ .found i r ∧ s.dels d ≠ .closing i r ∧ s.dels d ≠ .erasing i r) :
      Step cfg s (.delStart d id) ((s.event (.deleted id (.ok none))).setDel d (.answered (.ok none)))
  | delStart (d : Nat) (id : String) (r : Nat) (h : s.store id = some r)
      (hd : ∀ i r, s.dels d ≠ .waiting i r ∧ s.dels d ≠ .found i r ∧ s.dels d ≠ .closing i r ∧ s.dels d ≠ .erasing i r) :
      Step cfg s (.delStart d id) (s.setDel d (.found id r))
  | delCancelUnused (d : Nat) (id : String) (r : Nat) (t : Ticket) (hd : s.dels d = .found id r)
      (ht : s.tickets r = some t) (ho : t.ongoing = []) : Step cfg s (.delCancel d)
        (((s.closeAll t).setTicket r { t with canceled := true }).setDel d (.erasing id r))
  | delCancelWait (d : Nat) (id : String) (r : Nat) (t : Ticket) (hd : s.dels d = .found id r)
      (ht : s.tickets r = some t) (ho : t.ongoing ≠ []) (hc : cfg.removeTimeout ≠ 0) : Step cfg s (.delCancel d)
        ((s.setTicket r { t.cancelOps with canceled := true }).setDel d (.waiting id r))
  | delCancelNoWait (d : Nat) (id : String) (r : Nat) (t : Ticket) (hd : s.dels d = .found id r)
      (ht : s.tickets r = some t) (ho : t.ongoing ≠ []) (hc : cfg.removeTimeout = 0) : Step cfg s (.delCancel d)
        (((s.setTicket r { t.cancelOps with canceled := true }).event (.deleted id (.ok (some r)))).setDel d
          (.answered (.ok (some r))))
  | delWake (d : Nat) (id : String) (r : Nat) (t : Ticket) (hd : s.dels d = .waiting id r) (ht : s.tickets r = some t)
      (hu : t.unused = true) : Step cfg s (.delWake d) (s.setDel d (.closing id r))
  | delTimeout (d : Nat) (id : String) (r : Nat) (t : Ticket) (hd : s.dels d = .waiting id r) (ht : s.tickets r = some t)
      (hu : t.unused = false) : Step cfg s (.delTimeout d)
        ((s.event (.deleted id .conflict)).setDel d (.answered .conflict))
  | delClose (d : Nat) (id : String) (r : Nat) (t : Ticket) (hd : s.dels d = .closing id r) (ht : s.tickets r = some t) :
      Step cfg s (.delClose d) ((s.closeAll t).setDel d (.erasing id r))
  | delEraseNone (d : Nat) (id : String) (r : Nat) (hd : s.dels d = .erasing id r) (h : s.store id = none) :
      Step cfg s (.delErase d) ((s.event (.deleted id .keyError)).setDel d (.answered .keyError))
  | delErase (d : Nat) (id : String) (r r' : Nat) (hd : s.dels d = .erasing id r) (h : s.store id = some r') :
      Step cfg s (.delErase d)
        (({ s with store := upd s.store id none }.event (.deleted id (.ok (some r)))).setDel d (.answered (.ok (some r))))

theorem Step.of_step {cfg : Config} {s s' : State} {a : Act} (h : step cfg s a = some s') : Step cfg s a s' := by
  cases a with
  | tick n => cases h; exact .tick n
  | addTicket at_ => cases h; exact .addTicket at_
  | extend id n =>
    simp only [step] at h
    split at h
    · cases h; exact .extendNone id n ‹_›
    · split at h
      · cases h
      · cases h; exact .extend id n _ _ ‹_› ‹_›
  | clear => cases h; exact .clear
  | request c id op =>
    simp only [step, stepConn] at h
    split at h
    · cases h
    · split at h
      · split at h <;> cases h
        · exact .refused c id op _ (Bool.eq_false_iff.mpr ‹_›) ‹_› ‹_›
        · exact .request c id op _ (Bool.eq_false_iff.mpr ‹_›) ‹_› ‹_›
      · cases h
  | getContext c =>
    simp only [step, stepConn] at h
    split at h
    · split at h
      · cases h
      · split at h <;> cases h
        · exact .getContext c _ _ _ ‹_› ‹_› ‹_›
        · exact .openContext c _ _ ‹_› ‹_› ‹_›
    · cases h
  | openFailed c =>
    simp only [step, stepConn] at h
    split at h <;> cases h
    exact .openFailed c _ ‹_›
  | addContext c =>
    simp only [step, stepConn, Ticket.addContext] at h
    split at h
    · split at h
      · cases h
      · rename_i r k hp _ t ht
        by_cases hc : t.canceled = true
        · rw [if_pos hc] at h
          cases h
          exact .addContextRefused c r k t hp ht hc
        · rw [if_neg hc] at h
          cases h
          exact .addContext c r k t hp ht (by simpa using hc)
    · cases h
  | abort c =>
    simp only [step, stepConn] at h
    split at h <;> cases h
    exact .abort c _ _ ‹_›
  | options c =>
    simp only [step, stepConn] at h
    split at h <;> cases h
    exact .options c _ _ ‹_›
  | startOp c off =>
    simp only [step, stepConn, Ticket.addOperation] at h
    split at h
    · split at h
      · cases h
      · rename_i r k hp _ t ht
        by_cases hc : t.canceled = true
        · rw [if_pos hc] at h
          cases h
          exact .startRefused c off r k t hp ht hc
        · rw [if_neg hc] at h
          cases h
          exact .startOp c off r k t hp ht (by simpa using hc)
    · cases h
  | io c n =>
    simp only [step, stepConn] at h
    split at h
    · split at h
      · cases h
      · split at h <;> cases h
        exact .io c n _ _ _ _ _ ‹_› ‹_› ‹_›
    · cases h
  | check c =>
    simp only [step, stepConn] at h
    split at h
    · split at h
      · cases h
      · split at h
        · cases h
        · rename_i r i k hp _ t ht _ op ho
          by_cases hc : op.canceled = true
          · rw [if_pos hc] at h; cases h; exact .checkStop c r i k t op hp ht ho hc
          · rw [if_neg hc] at h; cases h; exact .checkGo c r i k t op hp ht ho (by simpa using hc)
    · cases h
  | endOp c =>
    simp only [step, stepConn] at h
    split at h <;> cases h
    · exact .endRunning c _ _ _ ‹_›
    · exact .endChecking c _ _ _ ‹_›
  | removeOp c =>
    simp only [step, stepConn] at h
    split at h
    · split at h
      · cases h
      · split at h <;> cases h
        exact .removeOp c _ _ _ _ _ ‹_› ‹_› ‹_›
    · cases h
  | touch c =>
    simp only [step, stepConn] at h
    split at h
    · split at h <;> cases h
      exact .touch c _ _ ‹_› ‹_›
    · cases h
  | closeContext c =>
    simp only [step, stepConn, Ticket.removeContext] at h
    split at h
    · split at h
      · cases h; exact .closeDone c ‹_› ‹_›
      · split at h
        · cases h
        · rename_i u r rest hr _ t ht
          cases hk : t.connections.lookup c with
          | none => rw [hk] at h; cases h; exact .closeNone c u r rest t ‹_› hr ht hk
          | some k => rw [hk] at h; cases h; exact .closeContext c u r rest t k ‹_› hr ht hk
    · cases h
  | delStart d id =>
    simp only [step, stepDel] at h
    split at h
    · cases h
    · cases h
    · cases h
    · cases h
    · have hd : ∀ i r, s.dels d ≠ .waiting i r ∧ s.dels d ≠ .found i r ∧ s.dels d ≠ .closing i r ∧ s.dels d ≠ .erasing i r := by
        intro i r
        refine ⟨?_, ?_, ?_, ?_⟩ <;> intro hh <;> simp_all
      split at h <;> cases h
      · exact .delStartNone d id ‹_› hd
      · exact .delStart d id _ ‹_› hd
  | delCancel d =>
    simp only [step, stepDel] at h
    split at h
    · split at h
      · cases h
      · rename_i id r hd _ t ht
        by_cases ho : t.ongoing = []
        · rw [if_pos (by simp [ho])] at h; cases h; exact .delCancelUnused d id r t hd ht ho
        · rw [if_neg (by simpa using ho)] at h
          by_cases hc : cfg.removeTimeout ≠ 0
          · rw [if_pos hc] at h; cases h; exact .delCancelWait d id r t hd ht ho hc
          · rw [if_neg hc] at h; cases h; exact .delCancelNoWait d id r t hd ht ho (by omega)
    · cases h
  | delWake d =>
    simp only [step, stepDel] at h
    split at h
    · split at h
      · cases h
      · split at h <;> cases h
        exact .delWake d _ _ _ ‹_› ‹_› ‹_›
    · cases h
  | delTimeout d =>
    simp only [step, stepDel] at h
    split at h
    · split at h
      · cases h
      · split at h <;> cases h
        exact .delTimeout d _ _ _ ‹_› ‹_› (Bool.eq_false_iff.mpr ‹_›)
    · cases h
  | delClose d =>
    simp only [step, stepDel] at h
    split at h
    · split at h <;> cases h
      exact .delClose d _ _ _ ‹_› ‹_›
    · cases h
  | delErase d =>
    simp only [step, stepDel] at h
    split at h
    · split at h <;> cases h
      · exact .delEraseNone d _ _ ‹_› ‹_›
      · exact .delErase d _ _ _ ‹_› ‹_›
    · cases h

end Imageio.Auth
