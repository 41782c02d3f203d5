import Verif.Lemmas.NbdWire
import Verif.Props.Extents
/-!
The extents of the NBD backend over the wire are extents of a server that is called directly
(`Props/Extents.lean`), so everything proved about those holds on the wire.
-/
namespace Imageio.NbdWire
open Imageio.Spec Imageio.Nbd Imageio.Extents

variable {τ : Type}

/-- A block status request that returns. -/
theorem status_ok {E : Env τ} (hp : Protocol E.server E.ss) {offset length : Nat} {s s' : State τ}
    {d : List (String × List Ext)} (hs : Synced E s) (hst : E.ss.structured = true)
    (h : NbdWire.exchange E (Nbd.extents E.ss offset length) s = (.ok d, s')) :
    ∃ (r : Reply) (reply : NbdReply), (Op.request s.conn.counter (.status offset length)).Fits ∧
      E.server.step s.srv (Op.request s.conn.counter (.status offset length)).wire = (s'.srv, r) ∧
      r.bytes = reply.wire s.conn.counter ∧ reply.IsStatus E.ss offset length ∧
      d = (reply.filterMap fun c => statusOf E.ss c.2).map (decoded E.ss) := by
  have hall : Op.Allowed E.ss (.status offset length) := ⟨trivial, fun _ _ _ => hst⟩
  have h : NbdWire.exchange E (Op.run E.ss (.status offset length)) s = (.ok (.extents d), s') := by
    rw [show Op.run E.ss (.status offset length) = (do let a ← Nbd.extents E.ss offset length; pure (.extents a)) from rfl,
      exchange_map, h]
  by_cases hfit : (Op.request s.conn.counter (.status offset length)).Fits
  · have hsent := run_sent (s := s.conn) (ss := E.ss) (op := .status offset length) trivial hfit
    have hnew : (Op.run E.ss (.status offset length) s.conn).2.sent.drop s.conn.sent.length =
        (Op.request s.conn.counter (.status offset length)).wire := by
      rw [hsent.1, List.drop_left]
      simp [Op.payload]
    have hne : (Op.request s.conn.counter (.status offset length)).wire ≠ [] := by
      intro hx
      have := congrArg List.length hx
      simp [NbdRequest.wire, be_length] at this
    by_cases ha : s.alive = true
    · cases hv : E.server.step s.srv (Op.request s.conn.counter (.status offset length)).wire with
      | mk v rp =>
        rw [exchange_alive ha hnew hne hv] at h
        obtain ⟨hh, -⟩ := hp _ _ _ (.status offset length) _ hall hfit (by simpa [Op.payload] using hv)
        cases hh with
        | done out hans _ _ _ _ _ =>
          obtain ⟨c1, e1, -⟩ := run_answers (t := []) (ss := E.ss) (op := .status offset length)
            (s := { s.conn with rest := s.conn.rest ++ rp.bytes, frags := rp.frags }) trivial hfit hans
            (by simp [hs.rest])
          rw [e1] at h
          generalize hb : rp.bytes = b at hans
          cases hans with
          | status reply _ hr =>
            simp only [Prod.mk.injEq, Except.ok.injEq, Out.extents.injEq] at h
            obtain ⟨h1, h2⟩ := h
            subst h2
            exact ⟨rp, reply, hfit, rfl, hb, hr, h1.symm⟩
          | done _ _ _ hop => exact absurd hop id
          | doneSimple hop => exact absurd hop id
        | failed e hans _ =>
          obtain ⟨c1, e1, -⟩ := run_answers (t := []) (ss := E.ss) (op := .status offset length)
            (s := { s.conn with rest := s.conn.rest ++ rp.bytes, frags := rp.frags }) trivial hfit hans
            (by simp [hs.rest])
          rw [e1] at h
          simp at h
        | lost more o hmore hans _ _ =>
          obtain ⟨e, c1, e1, -⟩ := run_truncated (ss := E.ss) (op := .status offset length)
            (s := { s.conn with rest := s.conn.rest ++ rp.bytes, frags := rp.frags }) (b := rp.bytes) trivial hfit hans
            hmore (by simp [hs.rest])
          rw [e1] at h
          simp at h
    · have := (exchange_outcome hp hs hall h).closed (by simpa using ha)
      obtain ⟨-, -, e, he⟩ := this
      cases he
  · have e := unfit_run (c := s.conn) (ss := E.ss) (op := .status offset length) trivial hfit
    rw [exchange_dead (.inr (by rw [e]; simp)), e] at h
    simp at h

/-- The descriptors of a reply. -/
def rawOf (ss : Session) (reply : NbdReply) : RawReply where
  alloc := (reply.filterMap fun c => statusOf ss c.2).lookup baseAllocation
  depth := (reply.filterMap fun c => statusOf ss c.2).lookup allocationDepth
  dirty := ss.dirtyBitmap.bind fun b => (reply.filterMap fun c => statusOf ss c.2).lookup b

theorem lookup_decoded (ss : Session) (l : List (String × List (Nat × Nat))) (name : String) :
    (l.map (decoded ss)).lookup name =
      (l.lookup name).map fun es => (recvExtents ss.minBlock (contextKind ss name) es).toOption.getD [] := by
  induction l with
  | nil => rfl
  | cons a l ih =>
    obtain ⟨k, es⟩ := a
    simp only [List.map_cons, decoded, List.lookup_cons]
    by_cases h : name = k
    · subst h
      simp
    · have : (name == k) = false := by simpa using h
      rw [this]
      exact ih

theorem mem_of_lookup {α β : Type} [BEq α] [LawfulBEq α] {l : List (α × β)} {a : α} {b : β}
    (h : l.lookup a = some b) : (a, b) ∈ l := by
  induction l with
  | nil => simp at h
  | cons x l ih =>
    obtain ⟨k, v⟩ := x
    rw [List.lookup_cons] at h
    by_cases hk : a = k
    · subst hk
      simp only [BEq.rfl, Option.some.injEq] at h
      simp [h]
    · rw [show (a == k) = false by simpa using hk] at h
      exact List.mem_cons_of_mem _ (ih h)

theorem lookup_of_mem {α β : Type} [BEq α] [LawfulBEq α] {l : List (α × β)} {a : α} {b : β}
    (h : (a, b) ∈ l) : ∃ b', l.lookup a = some b' := by
  induction l with
  | nil => simp at h
  | cons x l ih =>
    obtain ⟨k, v⟩ := x
    rw [List.lookup_cons]
    by_cases hk : a = k
    · subst hk
      simp
    · rw [show (a == k) = false by simpa using hk]
      exact ih (by simpa [hk] using h)

/-- A described context of a reply. -/
theorem mem_status {ss : Session} {reply : NbdReply} {name : String} {es : List (Nat × Nat)}
    (h : (reply.filterMap fun c => statusOf ss c.2).lookup name = some es) :
    ∃ c ∈ reply, statusOf ss c.2 = some (name, es) := by
  have := mem_of_lookup h
  rw [List.mem_filterMap] at this
  exact this

theorem recvContext_reply {ss : Session} {offset length : Nat} {reply : NbdReply}
    (hr : reply.IsStatus ss offset length) (name : String) :
    recvContext ss.minBlock (contextKind ss name) ((reply.filterMap fun c => statusOf ss c.2).lookup name) =
      .ok (((reply.filterMap fun c => statusOf ss c.2).map (decoded ss)).lookup name) := by
  rw [lookup_decoded]
  cases hl : (reply.filterMap fun c => statusOf ss c.2).lookup name with
  | none => rfl
  | some es =>
    obtain ⟨c, hc, hs⟩ := mem_status hl
    have hlg := hr.legal c hc
    obtain ⟨f, c⟩ := c
    cases c with
    | status ctx es' =>
      simp only [statusOf, Option.map_eq_some_iff, Prod.mk.injEq] at hs
      obtain ⟨n, h1, rfl, rfl⟩ := hs
      obtain ⟨hne, -, n', xs, h2, h3⟩ := hlg
      rw [h1] at h2
      cases h2
      cases es' with
      | nil => exact absurd rfl hne
      | cons e es' => simp [recvContext, h3, Except.toOption]
    | _ => simp [statusOf] at hs

/-- The reply that the client gets from the descriptors. -/
theorem wire_raw {ss : Session} (hss : ss.Sane) {offset length : Nat} {reply : NbdReply}
    (hr : reply.IsStatus ss offset length) (raw : Props.Server) (n off len : Nat)
    (hraw : raw n off len = .ok (rawOf ss reply)) :
    wireClient ss.minBlock raw n off len =
      .ok (replyOf ss ((reply.filterMap fun c => statusOf ss c.2).map (decoded ss))) := by
  have ka : contextKind ss baseAllocation = .alloc := by
    unfold contextKind
    rw [if_neg, if_neg (by decide)]
    intro h
    exact (hss.bitmap _ h.symm).1 rfl
  have kd : contextKind ss allocationDepth = .depth := by
    unfold contextKind
    rw [if_neg, if_pos rfl]
    intro h
    exact (hss.bitmap _ h.symm).2.1 rfl
  have h1 := recvContext_reply hr baseAllocation
  have h2 := recvContext_reply hr allocationDepth
  rw [ka] at h1
  rw [kd] at h2
  have h3 : recvContext ss.minBlock .dirty (rawOf ss reply).dirty =
      .ok (replyOf ss ((reply.filterMap fun c => statusOf ss c.2).map (decoded ss))).dirty := by
    unfold rawOf replyOf
    simp only
    cases hb : ss.dirtyBitmap with
    | none => rfl
    | some b =>
      have h3 := recvContext_reply hr b
      rw [show contextKind ss b = .dirty from if_pos hb.symm] at h3
      exact h3
  unfold wireClient
  rw [hraw]
  simp only [h3]
  simp only [rawOf, h1, h2]
  rfl

/-- What is true about an export. -/
def truthOf (ss : Session) (meta_ : String → Nat → Nat) : Props.Truth where
  alloc := meta_ baseAllocation
  depth := if ss.contexts.any (fun c => c.2 = allocationDepth) then some (meta_ allocationDepth) else none
  dirty := ss.dirtyBitmap.map meta_

/-- What an honest reply says. -/
def HonestReply (t : Props.Truth) (size off : Nat) (r : RawReply) : Prop :=
  (∀ l, r.alloc = some l → Describes t.alloc size off l) ∧
  (∀ l, r.depth = some l → ∃ d, t.depth = some d ∧ Describes d size off l) ∧
  (r.depth = none → t.depth = none) ∧
  (∀ l, r.dirty = some l → ∃ d, t.dirty = some d ∧ Describes d size off l)

theorem rawOf_honest {ss : Session} (hss : ss.Sane) {meta_ : String → Nat → Nat} {size offset length : Nat}
    {reply : NbdReply} (hr : reply.IsStatus ss offset length)
    (h : ∀ c ∈ reply, ∀ name es, statusOf ss c.2 = some (name, es) → Describes (meta_ name) size offset es) :
    HonestReply (truthOf ss meta_) size offset (rawOf ss reply) := by
  have key : ∀ name es, (reply.filterMap fun c => statusOf ss c.2).lookup name = some es →
      Describes (meta_ name) size offset es := by
    intro name es hl
    obtain ⟨c, hc, hs⟩ := mem_status hl
    exact h c hc name es hs
  refine ⟨fun l hl => key _ _ hl, fun l hl => ?_, fun hn => ?_, fun l hl => ?_⟩
  · obtain ⟨c, hc, hs⟩ := mem_status hl
    refine ⟨meta_ allocationDepth, ?_, key _ _ hl⟩
    unfold truthOf
    rw [if_pos]
    rw [List.any_eq_true]
    obtain ⟨f, c⟩ := c
    cases c with
    | status ctx es' =>
      simp only [statusOf, Option.map_eq_some_iff, Prod.mk.injEq] at hs
      obtain ⟨n, h1, rfl, -⟩ := hs
      exact ⟨_, mem_of_lookup h1, by simp⟩
    | _ => simp [statusOf] at hs
  · unfold truthOf
    rw [if_neg]
    rw [List.any_eq_true]
    rintro ⟨⟨id, name⟩, hc, hn'⟩
    simp only [decide_eq_true_eq] at hn'
    subst hn'
    obtain ⟨c, hc, es, hs⟩ := hr.complete id _ (hss.ids _ hc)
    have : (allocationDepth, es) ∈ reply.filterMap fun c => statusOf ss c.2 := List.mem_filterMap.2 ⟨c, hc, hs⟩
    obtain ⟨b', hb'⟩ := lookup_of_mem this
    rw [show (rawOf ss reply).depth = List.lookup allocationDepth (reply.filterMap fun c => statusOf ss c.2) from rfl,
      hb'] at hn
    cases hn
  · unfold rawOf at hl
    unfold truthOf
    simp only at hl ⊢
    cases hb : ss.dirtyBitmap with
    | none => rw [hb] at hl; simp at hl
    | some b =>
      rw [hb] at hl
      exact ⟨_, rfl, key _ _ hl⟩

/-- Only the coming commands matter. -/
theorem extentsLoop_congr {c1 c2 : Extents.Client} {dirty : Bool} {end_ : Nat} (fuel n : Nat) (l : Loop)
    (h : ∀ m, n ≤ m → c1 m = c2 m) :
    Extents.extentsLoop c1 dirty end_ fuel n l = Extents.extentsLoop c2 dirty end_ fuel n l := by
  induction fuel generalizing n l with
  | zero => unfold Extents.extentsLoop; rfl
  | succ fuel ih =>
    unfold Extents.extentsLoop
    rw [h n (Nat.le_refl _)]
    split
    · cases c2 n l.offset (min (end_ - l.offset) maxStep) with
      | error e => rfl
      | ok r =>
        simp only
        cases replyExtents dirty r with
        | error e => rfl
        | ok exts => exact ih _ _ fun m hm => h m (by omega)
    · rfl

/-- What a run of the loop keeps. -/
structure Same (E : Env τ) (meta_ : τ → String → Nat → Nat) (s s' : State τ) : Prop where
  kept : Kept s s'
  synced : Synced E s'
  image : E.server.image s'.srv = E.server.image s.srv
  disk : E.server.disk s'.srv = E.server.disk s.srv
  status : meta_ s'.srv = meta_ s.srv

theorem Same.refl {E : Env τ} {meta_ : τ → String → Nat → Nat} {s : State τ} (h : Synced E s) : Same E meta_ s s :=
  ⟨⟨rfl, rfl, rfl, rfl⟩, h, rfl, rfl, rfl⟩

theorem Same.trans {E : Env τ} {meta_ : τ → String → Nat → Nat} {a b c : State τ} (h : Same E meta_ a b)
    (h' : Same E meta_ b c) : Same E meta_ a c where
  kept := ⟨h'.kept.mode.trans h.kept.mode, h'.kept.sparse.trans h.kept.sparse, h'.kept.pos.trans h.kept.pos,
    h'.kept.size.trans h.kept.size⟩
  synced := h'.synced
  image := h'.image.trans h.image
  disk := h'.disk.trans h.disk
  status := h'.status.trans h.status

/-- The server changes only by a request. -/
theorem exchange_srv {E : Env τ} {op : Op} {s s' : State τ} {r : Except Err Out} (hsup : op.Supported E.ss)
    (h : NbdWire.exchange E (op.run E.ss) s = (r, s')) :
    s'.srv = s.srv ∨ ((op.request s.conn.counter).Fits ∧
      ∃ rp, E.server.step s.srv ((op.request s.conn.counter).wire ++ op.payload) = (s'.srv, rp)) := by
  by_cases hfit : (op.request s.conn.counter).Fits
  · have hsent := run_sent (s := s.conn) hsup hfit
    have hnew : (op.run E.ss s.conn).2.sent.drop s.conn.sent.length =
        (op.request s.conn.counter).wire ++ op.payload := by rw [hsent.1, List.drop_left]
    have hne : (op.request s.conn.counter).wire ++ op.payload ≠ [] := by
      intro hx
      have := congrArg List.length hx
      simp [NbdRequest.wire, be_length] at this
    by_cases ha : s.alive = true
    · right
      refine ⟨hfit, ?_⟩
      cases hv : E.server.step s.srv ((op.request s.conn.counter).wire ++ op.payload) with
      | mk v rp =>
        rw [exchange_alive ha hnew hne hv] at h
        cases h
        exact ⟨rp, rfl⟩
    · left
      rw [exchange_dead (.inl (by simpa using ha))] at h
      cases h
      rfl
  · left
    have e := unfit_run (c := s.conn) hsup hfit
    rw [exchange_dead (.inr (by rw [e]; simp))] at h
    cases h
    rfl

theorem image_ext {a b : Bytes} (hl : a.length = b.length) (h : ∀ i, byteAt a i = byteAt b i) : a = b := by
  apply List.ext_getElem hl
  intro i h1 h2
  have := h i
  simpa [byteAt, List.getD_eq_getElem?_getD, h1, h2] using this

/-- A block status request changes nothing. -/
theorem status_same {E : Env τ} (hp : Protocol E.server E.ss) {meta_ : τ → String → Nat → Nat}
    (hm : Reports E.server E.ss meta_) {offset length : Nat} {s s' : State τ}
    {r : Except Err (List (String × List Ext))} (hs : Synced E s) (hst : E.ss.structured = true)
    (h : NbdWire.exchange E (Nbd.extents E.ss offset length) s = (r, s')) : Same E meta_ s s' := by
  have hall : Op.Allowed E.ss (.status offset length) := ⟨trivial, fun _ _ _ => hst⟩
  have h : NbdWire.exchange E (Op.run E.ss (.status offset length)) s = (r.map .extents, s') := by
    rw [show Op.run E.ss (.status offset length) = (do let a ← Nbd.extents E.ss offset length; pure (.extents a)) from rfl,
      exchange_map, h]
    cases r <;> rfl
  have ho := exchange_outcome hp hs hall h
  refine ⟨ho.kept, ho.synced, ?_, ho.disk, ?_⟩
  · cases r with
    | ok d => exact (ho.ok _ rfl).2.2.1
    | error e =>
      have := (ho.error _ rfl).2
      exact image_ext this.length fun i => this.outside i id
  · rcases exchange_srv (op := .status offset length) trivial h with h | ⟨hfit, rp, hv⟩
    · rw [h]
    · exact (hm _ _ _ _ _ _ [] hfit (by simpa [Op.payload] using hv)).1

/-- The loop changes nothing, and its result is a result of a server that is called directly. -/
theorem extentsLoop_direct {E : Env τ} (hp : Protocol E.server E.ss) {meta_ : τ → String → Nat → Nat}
    (hm : Reports E.server E.ss meta_) (hss : E.ss.Sane) (hst : E.ss.structured = true) {dirty : Bool} {end_ : Nat}
    {fuel : Nat} {l : Loop} {s s' : State τ} {r : Except Err Loop} (hs : Synced E s) (n : Nat)
    (h : extentsLoop E dirty end_ fuel l s = (r, s')) :
    Same E meta_ s s' ∧ ∀ l', r = .ok l' → ∃ raw : Props.Server,
      (∀ m off len x, raw m off len = .ok x →
        HonestReply (truthOf E.ss (meta_ s.srv)) (E.server.image s.srv).length off x) ∧
      Extents.extentsLoop (wireClient E.ss.minBlock raw) dirty end_ fuel n l = .ok l' := by
  induction fuel generalizing l s s' r n with
  | zero =>
    unfold extentsLoop at h
    split at h
    · cases h
      exact ⟨.refl hs, nofun⟩
    · rename_i hlt
      cases h
      refine ⟨.refl hs, fun l' hl => ⟨fun _ _ _ => .error .stuck, nofun, ?_⟩⟩
      cases hl
      unfold Extents.extentsLoop
      rw [if_neg hlt]
  | succ fuel ih =>
    unfold extentsLoop at h
    split at h
    · rename_i hlt
      cases hx : NbdWire.exchange E (Nbd.extents E.ss l.offset (min (end_ - l.offset) maxStep : Nat)) s with
      | mk rx s1 =>
        have hsame := status_same hp hm hs hst hx
        rw [hx] at h
        cases rx with
        | error e =>
          cases h
          exact ⟨hsame, nofun⟩
        | ok d =>
          simp only at h
          cases hd : replyExtents dirty (replyOf E.ss d) with
          | error e =>
            rw [hd] at h
            cases h
            exact ⟨hsame, nofun⟩
          | ok exts =>
            rw [hd] at h
            obtain ⟨h1, h2⟩ := ih hsame.synced (n + 1) h
            refine ⟨hsame.trans h1, fun l' hl => ?_⟩
            obtain ⟨raw, hraw, hloop⟩ := h2 l' hl
            obtain ⟨rp, reply, hfit, hv, hb, hr, rfl⟩ := status_ok hp hs hst hx
            have hrep := (hm _ _ _ _ _ _ reply hfit hv).2 hb hr
            refine ⟨fun m off len => if m = n then
              (if off = l.offset then .ok (rawOf E.ss reply) else .error .stuck) else raw m off len, ?_, ?_⟩
            · intro m off len x hx
              simp only at hx
              split at hx
              · split at hx
                · rename_i ho
                  cases hx
                  rw [ho]
                  exact rawOf_honest hss hr hrep
                · cases hx
              · have := hraw m off len x hx
                rwa [hsame.image, hsame.status] at this
            · unfold Extents.extentsLoop
              rw [if_pos hlt]
              rw [wire_raw hss hr _ n l.offset _ (by simp)]
              simp only [hd]
              rw [← hloop]
              apply extentsLoop_congr
              intro m hmn
              funext off len
              have hne : ¬ m = n := by omega
              simp only [wireClient, hne, if_false]
    · rename_i hlt
      cases h
      refine ⟨.refl hs, fun l' hl => ⟨fun _ _ _ => .error .stuck, nofun, ?_⟩⟩
      cases hl
      unfold Extents.extentsLoop
      rw [if_neg hlt]

theorem extents_direct {E : Env τ} (hp : Protocol E.server E.ss) {meta_ : τ → String → Nat → Nat}
    (hm : Reports E.server E.ss meta_) (hss : E.ss.Sane) (hst : E.ss.structured = true) {dirty : Bool}
    {s s' : State τ} {r : Except Err (List (Option Ext))} (hs : Synced E s)
    (h : NbdWire.extents E dirty s = (r, s')) :
    Same E meta_ s s' ∧ ∀ l, r = .ok l → ∃ raw : Props.Server,
      raw.Honest (truthOf E.ss (meta_ s.srv)) s.size ∧
      Extents.extents (wireClient E.ss.minBlock raw) dirty 0 s.size = .ok l := by
  unfold NbdWire.extents at h
  cases hx : extentsLoop E dirty s.size s.size ⟨0, none, []⟩ s with
  | mk rx s1 =>
    obtain ⟨h1, h2⟩ := extentsLoop_direct hp hm hss hst hs 0 hx
    rw [hx] at h
    cases rx with
    | error e =>
      cases h
      exact ⟨h1, nofun⟩
    | ok l =>
      cases h
      refine ⟨h1, fun l' hl => ?_⟩
      cases hl
      obtain ⟨raw, h3, h4⟩ := h2 l rfl
      refine ⟨raw, ?_, ?_⟩
      · intro n off len r _ hr
        rw [hs.size]
        exact h3 n off len r hr
      · unfold Extents.extents
        rw [Nat.sub_zero, h4]

end Imageio.NbdWire
