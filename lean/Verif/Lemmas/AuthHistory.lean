import Verif.Lemmas.AuthLog
/-! Every use of a ticket goes back to a request that was authorized. -/
namespace Imageio.Auth

theorem AuthorizedBy.append {cfg : Config} {as : List Act} {c r : Nat} (h : AuthorizedBy cfg as c r) (bs : List Act) :
    AuthorizedBy cfg (as ++ bs) c r := by
  obtain ⟨b, id, op, a, s, rfl, h1, h2⟩ := h
  exact ⟨b, id, op, a ++ bs, s, by simp, h1, h2⟩

/-- The ticket object a connection thread is working with. -/
def Pc.ticket : Pc → Option Nat
  | .idle => none
  | .authorized r => some r
  | .opened r _ => some r
  | .ready r _ => some r
  | .running r _ _ => some r
  | .checking r _ _ => some r
  | .ended r _ _ => some r
  | .touching r => some r

/-- An event of an operation is done by a connection with an authorized request. -/
def HistInv (cfg : Config) (as : List Act) (s : State) : Prop :=
  (∀ c r, (s.conns c).pc.ticket = some r → AuthorizedBy cfg as c r) ∧
  (∀ r e, e ∈ s.log → e.uses r → ∃ c, AuthorizedBy cfg as c r)

theorem HistInv.step {cfg : Config} {as : List Act} {s s' : State} {a : Act} (hr : run cfg init as = some s)
    (h : HistInv cfg as s) (hs : Step cfg s a s') : HistInv cfg (as ++ [a]) s' := by
  have h1 : ∀ c r, (s.conns c).pc.ticket = some r → AuthorizedBy cfg (as ++ [a]) c r :=
    fun c r hc => (h.1 c r hc).append [a]
  have h2 : ∀ r e, e ∈ s.log → e.uses r → ∃ c, AuthorizedBy cfg (as ++ [a]) c r := fun r e he hu => by
    obtain ⟨c, hc⟩ := h.2 r e he hu
    exact ⟨c, hc.append [a]⟩
  cases hs with
  | request c id op r hc hp ha =>
    have h3 : AuthorizedBy cfg (as ++ [Act.request c id op]) c r := ⟨as, id, op, [], s, by simp, hr, ha⟩
    refine ⟨?_, h2⟩
    simp only [State.goto]
    grind [upd, Pc.ticket]
  | delCancelUnused d id r t hd ht ho =>
    obtain ⟨f1, f2, f3, f4, f5, f6, f7, f8, f9⟩ := closeAll_fields t s
    constructor
    · simp only [State.setTicket, State.setDel, f6]; exact h1
    · simp only [State.setTicket, State.setDel, f9]
      intro r e he hu
      rcases List.mem_append.mp he with he | he
      · exact h2 r e he hu
      · obtain ⟨p, _, rfl⟩ := List.mem_map.mp he
        exact hu.elim
  | delClose d id r t hd ht =>
    obtain ⟨f1, f2, f3, f4, f5, f6, f7, f8, f9⟩ := closeAll_fields t s
    constructor
    · simp only [State.setDel, f6]; exact h1
    · simp only [State.setDel, f9]
      intro r e he hu
      rcases List.mem_append.mp he with he | he
      · exact h2 r e he hu
      · obtain ⟨p, _, rfl⟩ := List.mem_map.mp he
        exact hu.elim
  | removeOp c r i k t op hp ht ho =>
    have := h1 c r (by rw [hp]; rfl)
    constructor <;> simp only [State.goto, State.event, State.setTicket] <;> grind [upd, Pc.ticket, Event.uses]
  | startOp c off r k t hp ht hc =>
    have := h1 c r (by rw [hp]; rfl)
    constructor <;> simp only [State.goto, State.event, State.setTicket] <;> grind [upd, Pc.ticket, Event.uses]
  | io c n r i k t op hp ht ho =>
    have := h1 c r (by rw [hp]; rfl)
    constructor <;> simp only [State.goto, State.event, State.setTicket] <;> grind [upd, Pc.ticket, Event.uses]
  | _ =>
    constructor <;> (try simp only [State.goto, State.event, State.setTicket, State.setDel, State.closeCtx]) <;>
      grind [upd, Pc.ticket, Event.uses]

theorem histInv_run {cfg : Config} {as bs : List Act} {s s' : State} (hr : run cfg init as = some s) (h : HistInv cfg as s)
    (hb : run cfg s bs = some s') : HistInv cfg (as ++ bs) s' := by
  induction bs generalizing as s with
  | nil => cases hb; simpa using h
  | cons a bs ih =>
    simp only [run] at hb
    split at hb
    · cases hb
    · rename_i s1 h1
      have hr' : run cfg init (as ++ [a]) = some s1 := by rw [run_append, hr]; simp [run, h1]
      have := ih hr' (h.step hr (Step.of_step h1)) hb
      simpa using this

theorem histInv {cfg : Config} {as : List Act} {s : State} (h : run cfg init as = some s) : HistInv cfg as s := by
  have h0 : HistInv cfg [] init := ⟨by simp [init, Pc.ticket], by simp [init]⟩
  simpa using histInv_run (as := []) rfl h0 h

end Imageio.Auth
