import Verif.Lemmas.NbdExtents
import Verif.Props.NbdWire
import Verif.Props.Checksum
/-!
C62: the extents of the NBD backend over the wire.  The server is any machine that answers in the way of
the protocol; it may split its replies, refuse any request, and the connection may break at any byte.
-/
namespace Imageio.Props
open Imageio.Spec Imageio.Nbd Imageio.NbdWire Imageio.Extents
open Imageio.Images (lit)

variable {τ : Type}

/-- What the backend knows. -/
def wireInfo (ss : Session) (size : Nat) : NbdInfo := ⟨size, hasBaseAllocation ss, ss.dirtyBitmap.isSome⟩

theorem structured_of_base {ss : Session} (hss : ss.Sane) (h : hasBaseAllocation ss = true) : ss.structured = true := by
  apply hss.structured
  rintro hc
  simp [hasBaseAllocation, hc] at h

theorem structured_of_bitmap {ss : Session} (hss : ss.Sane) (h : ss.dirtyBitmap ≠ none) : ss.structured = true := by
  apply hss.structured
  rintro hc
  obtain ⟨b, hb⟩ := Option.ne_none_iff_exists'.1 h
  obtain ⟨-, -, id, hid⟩ := hss.bitmap b hb
  simp [hc] at hid

theorem zeroExtents_direct {E : Env τ} (hp : Protocol E.server E.ss) {meta_ : τ → String → Nat → Nat}
    (hm : Reports E.server E.ss meta_) (hss : E.ss.Sane) {s s' : NbdWire.State τ} {r : Except Err (List ZeroExtent)}
    (hs : Synced E s) (h : NbdWire.zeroExtents E s = (r, s')) :
    Same E meta_ s s' ∧ ∀ zs, r = .ok zs → ∃ raw : Server, raw.Honest (truthOf E.ss (meta_ s.srv)) s.size ∧
      nbdZero (wireInfo E.ss s.size) (wireClient E.ss.minBlock raw) = .ok zs := by
  unfold NbdWire.zeroExtents at h
  split at h
  · rename_i hb
    cases h
    refine ⟨.refl hs, fun zs hz => ⟨fun _ _ _ => .error .stuck, nofun, ?_⟩⟩
    unfold nbdZero
    rw [if_pos (by simpa [wireInfo] using hb)]
    exact hz
  · rename_i hb
    have hst := structured_of_base hss (by simpa using hb)
    cases hx : NbdWire.extents E false s with
    | mk rx s1 =>
      obtain ⟨h1, h2⟩ := extents_direct hp hm hss hst hs hx
      rw [hx] at h
      cases rx with
      | error e =>
        cases h
        exact ⟨h1, nofun⟩
      | ok l =>
        cases h
        refine ⟨h1, fun zs hz => ?_⟩
        obtain ⟨raw, h3, h4⟩ := h2 l rfl
        refine ⟨raw, h3, ?_⟩
        unfold nbdZero
        rw [if_neg (by simpa [wireInfo] using hb)]
        simp only [wireInfo, h4]
        exact hz

theorem dirtyExtents_direct {E : Env τ} (hp : Protocol E.server E.ss) {meta_ : τ → String → Nat → Nat}
    (hm : Reports E.server E.ss meta_) (hss : E.ss.Sane) {s s' : NbdWire.State τ} {r : Except Err (List DirtyExtent)}
    (hs : Synced E s) (h : NbdWire.dirtyExtents E s = (r, s')) :
    Same E meta_ s s' ∧ ∀ zs, r = .ok zs → ∃ raw : Server, raw.Honest (truthOf E.ss (meta_ s.srv)) s.size ∧
      nbdDirty (wireInfo E.ss s.size) (wireClient E.ss.minBlock raw) = .ok zs ∧
      ∃ b, E.ss.dirtyBitmap = some b := by
  unfold NbdWire.dirtyExtents at h
  split at h
  · cases h
    exact ⟨.refl hs, nofun⟩
  · rename_i hb
    have hst := structured_of_bitmap hss hb
    cases hx : NbdWire.extents E true s with
    | mk rx s1 =>
      obtain ⟨h1, h2⟩ := extents_direct hp hm hss hst hs hx
      rw [hx] at h
      cases rx with
      | error e =>
        cases h
        exact ⟨h1, nofun⟩
      | ok l =>
        cases h
        refine ⟨h1, fun zs hz => ?_⟩
        obtain ⟨raw, h3, h4⟩ := h2 l rfl
        refine ⟨raw, h3, ?_, Option.ne_none_iff_exists'.1 hb⟩
        unfold nbdDirty
        rw [if_neg (by simpa [wireInfo] using hb)]
        simp only [wireInfo, h4]
        exact hz

/-! ## What the extents say -/

/-- C62: zero extents that are returned tile the export, and the bytes of every extent that is called
zero are zero in the export of the server. -/
theorem C62_zero (E : Env τ) (hp : Protocol E.server E.ss) (meta_ : τ → String → Nat → Nat)
    (hm : Reports E.server E.ss meta_) (hz : ZeroFlags E.server meta_) (hss : E.ss.Sane)
    (s s' : NbdWire.State τ) (hr : s.conn.rest = []) (hsz : s.size = (E.server.image s.srv).length)
    (hpos : 0 < s.size) (zs : List ZeroExtent) (h : NbdWire.zeroExtents E s = (.ok zs, s')) :
    Tiles 0 (zs.map fun z => (z.start, z.length)) s.size ∧
      ∀ z ∈ zs, z.zero = true → ∀ k, z.start ≤ k → k < z.start + z.length →
        byteAt (E.server.image s.srv) k = 0 := by
  obtain ⟨-, h2⟩ := zeroExtents_direct hp hm hss ⟨hr, hsz⟩ h
  obtain ⟨raw, h3, h4⟩ := h2 zs rfl
  have hv := C22_nbd_valid (i := wireInfo E.ss s.size) h3 hpos (content := byteAt (E.server.image s.srv))
    (by
      intro k hk hb
      refine hz s.srv k (by rw [← hsz]; exact hk) ?_
      rw [Nat.testBit_eq_decide_div_mod_eq]
      exact decide_eq_true hb) h4
  exact ⟨hv.tiles, fun z hz' hzero k h1 h2 => hv.zero z hz' hzero k h1 h2⟩

/-- C62: the flags of the zero extents are those of the contexts: zero is bit 1 of base:allocation, and a
hole is depth 0 of qemu:allocation-depth, if the server has it. -/
theorem C62_flags (E : Env τ) (hp : Protocol E.server E.ss) (meta_ : τ → String → Nat → Nat)
    (hm : Reports E.server E.ss meta_) (hss : E.ss.Sane)
    (s s' : NbdWire.State τ) (hr : s.conn.rest = []) (hsz : s.size = (E.server.image s.srv).length)
    (id : Nat) (hb : (id, "base:allocation") ∈ E.ss.contexts)
    (zs : List ZeroExtent) (h : NbdWire.zeroExtents E s = (.ok zs, s')) (z : ZeroExtent) (hz : z ∈ zs) (k : Nat)
    (hk : z.start ≤ k ∧ k < z.start + z.length) :
    z.zero = (meta_ s.srv "base:allocation" k).testBit 1 ∧
    ((∃ id, (id, "qemu:allocation-depth") ∈ E.ss.contexts) →
      z.hole = some (decide (meta_ s.srv "qemu:allocation-depth" k = 0))) ∧
    ((¬ ∃ id, (id, "qemu:allocation-depth") ∈ E.ss.contexts) → z.hole = some false) := by
  obtain ⟨-, h2⟩ := zeroExtents_direct hp hm hss ⟨hr, hsz⟩ h
  obtain ⟨raw, h3, h4⟩ := h2 zs rfl
  have hba : (wireInfo E.ss s.size).hasBaseAllocation = true := by
    simp only [wireInfo, hasBaseAllocation, List.any_eq_true]
    exact ⟨_, hb, by simp [baseAllocation]⟩
  obtain ⟨e1, e2⟩ := C21_zero_flags (i := wireInfo E.ss s.size) h3 hba h4 z hz k hk
  refine ⟨?_, fun hd => ?_, fun hd => ?_⟩
  · rw [e1, Nat.testBit_eq_decide_div_mod_eq]
    rfl
  · have : (truthOf E.ss (meta_ s.srv)).depth = some (meta_ s.srv allocationDepth) := by
      unfold truthOf
      obtain ⟨id, hd⟩ := hd
      rw [if_pos (List.any_eq_true.2 ⟨_, hd, by simp [allocationDepth]⟩)]
    rw [e2, this]
    rfl
  · have : (truthOf E.ss (meta_ s.srv)).depth = none := by
      unfold truthOf
      rw [if_neg]
      intro hx
      obtain ⟨c, hc, hn⟩ := List.any_eq_true.1 hx
      exact hd ⟨c.1, by rw [show "qemu:allocation-depth" = c.2 from (of_decide_eq_true hn).symm]; exact hc⟩
    rw [e2, this]

/-- C62: dirty extents that are returned tile the export; dirty is bit 0 of the dirty bitmap. -/
theorem C62_dirty (E : Env τ) (hp : Protocol E.server E.ss) (meta_ : τ → String → Nat → Nat)
    (hm : Reports E.server E.ss meta_) (hss : E.ss.Sane)
    (s s' : NbdWire.State τ) (hr : s.conn.rest = []) (hsz : s.size = (E.server.image s.srv).length)
    (hpos : 0 < s.size) (zs : List DirtyExtent) (h : NbdWire.dirtyExtents E s = (.ok zs, s')) :
    Tiles 0 (zs.map fun z => (z.start, z.length)) s.size ∧
      ∃ bitmap, E.ss.dirtyBitmap = some bitmap ∧ ∀ z ∈ zs, ∀ k, z.start ≤ k → k < z.start + z.length →
        z.dirty = (meta_ s.srv bitmap k).testBit 0 ∧ z.zero = (meta_ s.srv "base:allocation" k).testBit 1 := by
  obtain ⟨-, h2⟩ := dirtyExtents_direct hp hm hss ⟨hr, hsz⟩ h
  obtain ⟨raw, h3, h4, b, hb⟩ := h2 zs rfl
  refine ⟨C20_dirty_tiles (i := wireInfo E.ss s.size) hpos h4, b, hb, fun z hz k h1 h2 => ?_⟩
  obtain ⟨e1, e2⟩ := C21_dirty_flags (i := wireInfo E.ss s.size) hpos h3
    (bitmap := meta_ s.srv b) (by simp [truthOf, hb]) h4 z hz k ⟨h1, h2⟩
  refine ⟨?_, ?_⟩
  · rw [e2, Nat.testBit_zero]
  · rw [e1, Nat.testBit_eq_decide_div_mod_eq]
    rfl

/-- C62: without a dirty bitmap dirty extents are refused, and nothing is sent. -/
theorem C62_no_bitmap (E : Env τ) (s : NbdWire.State τ) (h : E.ss.dirtyBitmap = none) :
    NbdWire.dirtyExtents E s = (.error Extents.unsupported, s) := by
  unfold NbdWire.dirtyExtents
  rw [if_pos h]

/-- C62: without base:allocation the export is one data extent, and nothing is sent. -/
theorem C62_no_allocation (E : Env τ) (s : NbdWire.State τ)
    (h : ¬ ∃ id, (id, "base:allocation") ∈ E.ss.contexts) :
    NbdWire.zeroExtents E s = (.ok [⟨0, s.size, false, some false⟩], s) := by
  unfold NbdWire.zeroExtents
  rw [if_pos]
  simp only [hasBaseAllocation, Bool.not_eq_eq_eq_not, Bool.not_true, List.any_eq_false, decide_eq_true_eq]
  rintro ⟨id, name⟩ hc rfl
  exact h ⟨id, hc⟩

/-- C62: asking for extents changes nothing, whatever the result: the export, its storage, the position,
and the connection is ready for the next request. -/
theorem C62_unchanged (E : Env τ) (hp : Protocol E.server E.ss) (meta_ : τ → String → Nat → Nat)
    (hm : Reports E.server E.ss meta_) (hss : E.ss.Sane)
    (s s' : NbdWire.State τ) (hr : s.conn.rest = []) (hsz : s.size = (E.server.image s.srv).length)
    (h : (∃ r, NbdWire.zeroExtents E s = (r, s')) ∨ ∃ r, NbdWire.dirtyExtents E s = (r, s')) :
    E.server.image s'.srv = E.server.image s.srv ∧ E.server.disk s'.srv = E.server.disk s.srv ∧
      s'.pos = s.pos ∧ s'.size = s.size ∧ s'.conn.rest = [] := by
  have : Same E meta_ s s' := by
    rcases h with ⟨r, h⟩ | ⟨r, h⟩
    · exact (zeroExtents_direct hp hm hss ⟨hr, hsz⟩ h).1
    · exact (dirtyExtents_direct hp hm hss ⟨hr, hsz⟩ h).1
  exact ⟨this.image, this.disk, this.kept.pos, this.kept.size, this.synced.rest⟩

/-- C62: the extents depend only on what is true about the export: two servers with the same flags give
the same extents, however they split, shorten or extend their replies. -/
theorem C62_split_independent (E E' : Env τ) (hp : Protocol E.server E.ss) (hp' : Protocol E'.server E'.ss)
    (meta_ : τ → String → Nat → Nat) (hm : Reports E.server E.ss meta_) (hm' : Reports E'.server E'.ss meta_)
    (hss : E.ss.Sane) (hctx : E'.ss.contexts = E.ss.contexts) (hstr : E'.ss.structured = E.ss.structured)
    (hbm : E'.ss.dirtyBitmap = E.ss.dirtyBitmap)
    (s t s' t' : NbdWire.State τ) (hr : s.conn.rest = []) (hsz : s.size = (E.server.image s.srv).length)
    (hr' : t.conn.rest = []) (hsz' : t.size = (E'.server.image t.srv).length) (hpos : 0 < s.size)
    (hsame : t.size = s.size ∧ meta_ t.srv = meta_ s.srv) (zs zs' : List ZeroExtent)
    (h : NbdWire.zeroExtents E s = (.ok zs, s')) (h' : NbdWire.zeroExtents E' t = (.ok zs', t')) : zs = zs' := by
  have hss' : E'.ss.Sane := by
    refine ⟨?_, ?_, ?_⟩
    · rw [hctx, hstr]; exact hss.structured
    · rw [hctx]; exact hss.ids
    · rw [hctx, hbm]; exact hss.bitmap
  obtain ⟨-, h2⟩ := zeroExtents_direct hp hm hss ⟨hr, hsz⟩ h
  obtain ⟨raw, h3, h4⟩ := h2 zs rfl
  obtain ⟨-, h2'⟩ := zeroExtents_direct hp' hm' hss' ⟨hr', hsz'⟩ h'
  obtain ⟨raw', h3', h4'⟩ := h2' zs' rfl
  have htr : truthOf E'.ss (meta_ t.srv) = truthOf E.ss (meta_ s.srv) := by
    unfold truthOf
    rw [hctx, hbm, hsame.2]
  rw [htr, hsame.1] at h3'
  have hinfo : wireInfo E'.ss t.size = wireInfo E.ss s.size := by
    unfold wireInfo hasBaseAllocation
    rw [hctx, hbm, hsame.1]
  rw [hinfo] at h4'
  unfold nbdZero at h4 h4'
  split at h4
  · rename_i hb
    rw [if_pos hb] at h4'
    rw [h4] at h4'
    simpa using h4'
  · rename_i hb
    rw [if_neg hb] at h4'
    cases hx : Extents.extents (wireClient E.ss.minBlock raw) false 0 (wireInfo E.ss s.size).exportSize with
    | error e => rw [hx] at h4; simp at h4
    | ok l =>
      cases hx' : Extents.extents (wireClient E'.ss.minBlock raw') false 0 (wireInfo E.ss s.size).exportSize with
      | error e => rw [hx'] at h4'; simp at h4'
      | ok l' =>
        have := C21_split_independent h3 h3' false hpos hx hx'
        subst this
        rw [hx] at h4
        rw [hx'] at h4'
        simp only at h4 h4'
        rw [h4] at h4'
        simpa using h4'

/-- C62: what a client of the HTTP server gets: every extent that it is told to be zero is zero in the
export of the NBD server, whatever the ticket and the request. -/
theorem C62_http {T : Type} {dumps : Dicts → T} {loads : T → Option Dicts} (json : ∀ d, loads (dumps d) = some d)
    (E : Env τ) (hp : Protocol E.server E.ss) (meta_ : τ → String → Nat → Nat)
    (hm : Reports E.server E.ss meta_) (hz : ZeroFlags E.server meta_) (hss : E.ss.Sane)
    (s : NbdWire.State τ) (hr : s.conn.rest = []) (hsz : s.size = (E.server.image s.srv).length)
    (hpos : 0 < s.size) (ticketId : Http.Str) (auth : Option Err) (dirtyTicket : Bool) (d : Except Err (List DirtyExtent))
    (r : Nat × T) (hresp : r = respond dumps (handler ticketId (extentsQuery (lit "zero")) auth dirtyTicket
      (NbdWire.zeroExtents E s).1 d).1)
    (zs : List ZeroExtent) (h : getExtents loads ZeroExtent.fromDict r.1 r.2 = .ok zs) :
    Tiles 0 (zs.map fun z => (z.start, z.length)) s.size ∧
      ∀ z ∈ zs, z.zero = true → ∀ k, z.start ≤ k → k < z.start + z.length →
        byteAt (E.server.image s.srv) k = 0 := by
  subst hresp
  have key : ∀ hx : ticketId = [] ∨ auth ≠ none ∨ (lit "zero" ≠ lit "zero" ∧ lit "zero" ≠ lit "dirty") ∨
      (lit "zero" = lit "dirty" ∧ (dirtyTicket = false ∨ ∃ e, d = .error e)) ∨
      (lit "zero" = lit "zero" ∧ ∃ e, (NbdWire.zeroExtents E s).1 = .error e), False := by
    intro hx
    obtain ⟨-, e, he⟩ := C35_refused (dumps := dumps) (loads := loads) ticketId (lit "zero") auth dirtyTicket
      (NbdWire.zeroExtents E s).1 d ZeroExtent.fromDict hx
    rw [he] at h
    cases h
  cases hx : NbdWire.zeroExtents E s with
  | mk rx s' =>
    cases rx with
    | error e => exact (key (.inr (.inr (.inr (.inr ⟨rfl, e, by rw [hx]⟩))))).elim
    | ok zs' =>
      by_cases ht : ticketId = []
      · exact (key (.inl ht)).elim
      · cases auth with
        | some e => exact (key (.inr (.inl nofun))).elim
        | none =>
          have := C35_zero json ticketId ht dirtyTicket zs' d
          simp only at this
          rw [hx, this] at h
          cases h
          exact C62_zero E hp meta_ hm hz hss s s' hr hsz hpos zs hx

/-- C62: the session of a handshake is sane, if the server gave every context its own id and its bitmap
has a name of its own. -/
theorem C62_session {h : Handshake} {dirty : Bool} {c : Nbd.Client} (hd : Described h dirty c)
    (hids : (h.selected.map (·.2)).Nodup)
    (hb : h.bitmap dirty ≠ some "base:allocation" ∧ h.bitmap dirty ≠ some "qemu:allocation-depth") :
    c.session.Sane := by
  refine ⟨fun hne => ?_, fun x hx => ?_, fun b hb' => ?_⟩
  · obtain ⟨⟨id, name⟩, hx⟩ := List.exists_mem_of_ne_nil _ hne
    have := (hd.contexts id name).1 hx
    unfold Handshake.selected at this
    split at this
    · exact hd.structured.2 (by assumption)
    · simp at this
  · exact hd.ids hids x.1 x.2 ((hd.contexts x.1 x.2).1 hx)
  · obtain ⟨h1, id, h2⟩ := (hd.bitmap b).1 hb'
    rw [h1] at hb
    exact ⟨fun hx => hb.1 (by rw [hx]), fun hx => hb.2 (by rw [hx]), id, (hd.contexts id b).2 h2⟩

/-! ## When the extents are reported -/

theorem recvExtents_aligned {mb : Nat} {ctx : Context} {raw : List (Nat × Nat)} {es : List Ext}
    (h : Extents.recvExtents mb ctx raw = .ok es) : (Extents.bytes es).length % mb = 0 := by
  induction raw generalizing es with
  | nil =>
    simp only [Extents.recvExtents, Except.ok.injEq] at h
    subst h
    simp
  | cons r raw ih =>
    obtain ⟨len, fl⟩ := r
    unfold Extents.recvExtents at h
    split at h
    · cases h
    · split at h
      · cases h
      split at h
      · cases h
      · rename_i e he _ hmod
        split at h
        · cases h
        · rename_i es' hes
          cases h
          have h1 : e.length % mb = 0 := by simpa using hmod
          have h2 := ih hes
          rw [bytes_cons, List.length_append, List.length_replicate, Nat.add_mod, h1, h2]
          simp

/-- A reply of the protocol has extents, that are aligned. -/
theorem reply_extents {ss : Session} (hss : ss.Sane) {dirty : Bool} {offset length : Nat} {reply : NbdReply}
    (hr : reply.IsStatus ss offset length) (hb : hasBaseAllocation ss = true)
    (hd : dirty = true → ss.dirtyBitmap ≠ none) :
    ∃ exts, replyExtents dirty (replyOf ss ((reply.filterMap fun c => statusOf ss c.2).map (decoded ss))) = .ok exts ∧
      Pos exts ∧ exts ≠ [] ∧ (bytes exts).length % ss.minBlock = 0 := by
  have hw := wire_raw hss hr (fun _ _ _ => .ok (rawOf ss reply)) 0 0 0 rfl
  have hlk : ∀ id name, (id, name) ∈ ss.contexts → ∃ es xs,
      (reply.filterMap fun c => statusOf ss c.2).lookup name = some es ∧
      ((reply.filterMap fun c => statusOf ss c.2).map (decoded ss)).lookup name = some xs ∧
      (bytes xs).length % ss.minBlock = 0 := by
    intro id name hid
    obtain ⟨c, hc, es, hs⟩ := hr.complete id name (hss.ids _ hid)
    have hmem : (name, es) ∈ reply.filterMap fun c => statusOf ss c.2 := List.mem_filterMap.2 ⟨c, hc, hs⟩
    obtain ⟨es', he'⟩ := NbdWire.lookup_of_mem hmem
    have hcx := recvContext_reply hr name
    rw [he'] at hcx
    cases es' with
    | nil => simp [recvContext] at hcx
    | cons e es' =>
      simp only [recvContext] at hcx
      cases hre : Extents.recvExtents ss.minBlock (contextKind ss name) (e :: es') with
      | error e => rw [hre] at hcx; simp at hcx
      | ok xs =>
        rw [hre] at hcx
        simp only [Except.ok.injEq] at hcx
        exact ⟨_, xs, he', hcx.symm, recvExtents_aligned hre⟩
  have hdl : ∀ name xs, ((reply.filterMap fun c => statusOf ss c.2).map (decoded ss)).lookup name = some xs →
      (bytes xs).length % ss.minBlock = 0 := by
    intro name xs hx
    rw [lookup_decoded, Option.map_eq_some_iff] at hx
    obtain ⟨es, -, rfl⟩ := hx
    cases hre : Extents.recvExtents ss.minBlock (contextKind ss name) es with
    | error e => simp [Except.toOption]
    | ok xs => simpa [Except.toOption] using recvExtents_aligned hre
  have hmin : ∀ a b : Nat, a % ss.minBlock = 0 → b % ss.minBlock = 0 → min a b % ss.minBlock = 0 := by
    intro a b ha hb
    rcases Nat.le_total a b with h | h
    · rw [Nat.min_eq_left h]; exact ha
    · rw [Nat.min_eq_right h]; exact hb
  obtain ⟨⟨id, name⟩, hid, hn⟩ := List.any_eq_true.1 hb
  simp only [decide_eq_true_eq] at hn
  subst hn
  obtain ⟨-, a, -, ha, hal⟩ := hlk _ _ hid
  have : ∃ exts, replyExtents dirty (replyOf ss ((reply.filterMap fun c => statusOf ss c.2).map (decoded ss))) = .ok exts ∧
      (bytes exts).length % ss.minBlock = 0 := by
    unfold replyExtents replyOf
    simp only [ha]
    cases dirty with
    | true =>
      obtain ⟨b, hb'⟩ := Option.ne_none_iff_exists'.1 (hd rfl)
      obtain ⟨-, -, id', hid'⟩ := hss.bitmap b hb'
      obtain ⟨-, x, -, hx, hxl⟩ := hlk _ _ hid'
      refine ⟨merged a x, by simp [hb', hx], ?_⟩
      rw [bytes_merged, List.length_zipWith]
      exact hmin _ _ hal hxl
    | false =>
      simp only [Bool.false_eq_true, if_false]
      cases hx : ((reply.filterMap fun c => statusOf ss c.2).map (decoded ss)).lookup allocationDepth with
      | none => exact ⟨a, rfl, hal⟩
      | some x =>
        refine ⟨merged a x, rfl, ?_⟩
        rw [bytes_merged, List.length_zipWith]
        exact hmin _ _ hal (hdl _ _ hx)
  obtain ⟨exts, he, hl⟩ := this
  obtain ⟨h1, h2⟩ := wire_reply hw he
  exact ⟨exts, he, h1, h2, hl⟩

/-- A block status request to a server without errors. -/
theorem status_works {E : Env τ} (hw : ReliableStatus E.server E.ss) (hst : E.ss.structured = true)
    {offset length : Nat} {s : NbdWire.State τ} (hs : Synced E s) (ha : s.alive = true)
    (hfit : (Op.request s.conn.counter (.status offset length)).Fits) (hl : 0 < length)
    (hin : offset + length ≤ s.size) (hal : (Op.status offset length).Aligned E.ss.minBlock) :
    ∃ (reply : NbdReply) (s' : NbdWire.State τ), reply.IsStatus E.ss offset length ∧
      NbdWire.exchange E (Nbd.extents E.ss offset length) s =
        (.ok ((reply.filterMap fun c => statusOf E.ss c.2).map (decoded E.ss)), s') ∧
      s'.alive = true ∧ s'.conn.counter = s.conn.counter + 1 := by
  have hsent := run_sent (s := s.conn) (ss := E.ss) (op := .status offset length) trivial hfit
  have hnew : (Op.run E.ss (.status offset length) s.conn).2.sent.drop s.conn.sent.length =
      (Op.request s.conn.counter (.status offset length)).wire := by
    rw [hsent.1, List.drop_left]
    simp [Op.payload]
  have hne : (Op.request s.conn.counter (.status offset length)).wire ≠ [] := by
    intro hx
    have := congrArg List.length hx
    simp [NbdRequest.wire, be_length] at this
  cases hv : E.server.step s.srv (Op.request s.conn.counter (.status offset length)).wire with
  | mk v rp =>
    obtain ⟨⟨reply, hr, hb⟩, hcl⟩ := hw _ _ _ _ _ _ hfit hl (by rw [← hs.size]; exact hin) hal hv
    have hex := exchange_alive ha hnew hne hv
    obtain ⟨c1, e1, a1⟩ := run_answers (t := []) (ss := E.ss) (op := .status offset length)
      (s := { s.conn with rest := s.conn.rest ++ rp.bytes, frags := rp.frags }) trivial hfit
      (.status reply hst hr) (by simp [hs.rest, hb])
    rw [e1] at hex
    simp only at hex
    rw [show Op.run E.ss (.status offset length) = (do let a ← Nbd.extents E.ss offset length; pure (.extents a)) from rfl,
      NbdWire.exchange_map] at hex
    cases hx : NbdWire.exchange E (Nbd.extents E.ss offset length) s with
    | mk rx s' =>
      rw [hx] at hex
      cases rx with
      | error e => simp at hex
      | ok d =>
        simp only [Prod.mk.injEq, Except.ok.injEq, Out.extents.injEq] at hex
        obtain ⟨rfl, rfl⟩ := hex
        exact ⟨reply, _, hr, rfl, by simp [hcl], a1.counter⟩

theorem aligned_next {mb offset length end_ : Nat} (h1 : offset % mb = 0) (h2 : end_ % mb = 0) (h3 : length % mb = 0) :
    min end_ (offset + length) % mb = 0 := by
  rcases Nat.le_total end_ (offset + length) with h | h
  · rw [Nat.min_eq_left h]; exact h2
  · rw [Nat.min_eq_right h, Nat.add_mod, h1, h3]; simp

theorem aligned_sub {mb a b : Nat} (h : a ≤ b) (h1 : a % mb = 0) (h2 : b % mb = 0) : (b - a) % mb = 0 :=
  Nat.mod_eq_zero_of_dvd (Nat.dvd_sub (Nat.dvd_of_mod_eq_zero h2) (Nat.dvd_of_mod_eq_zero h1))

theorem extentsLoop_works {E : Env τ} (hp : Protocol E.server E.ss) {meta_ : τ → String → Nat → Nat}
    (hm : Reports E.server E.ss meta_) (hw : ReliableStatus E.server E.ss) (hss : E.ss.Sane)
    (hb : hasBaseAllocation E.ss = true) {dirty : Bool} (hd : dirty = true → E.ss.dirtyBitmap ≠ none)
    (hmb : 2 ^ 31 % E.ss.minBlock = 0) {end_ : Nat} (hal : end_ % E.ss.minBlock = 0) (h64 : end_ ≤ 2 ^ 64)
    (fuel : Nat) (l : Loop) (s : NbdWire.State τ) (hs : Synced E s) (hsz : s.size = end_) (ha : s.alive = true)
    (hg : l.Good) (hle : l.offset ≤ end_) (hlen : (bytes l.all).length = l.offset) (hla : l.offset % E.ss.minBlock = 0)
    (hf : end_ - l.offset ≤ fuel) (hc : s.conn.counter + (end_ - l.offset) ≤ 2 ^ 64) :
    ∃ l' s', NbdWire.extentsLoop E dirty end_ fuel l s = (.ok l', s') ∧ l'.Good ∧
      (bytes l'.all).length = end_ ∧ s'.alive = true := by
  induction fuel generalizing l s with
  | zero =>
    unfold NbdWire.extentsLoop
    rw [if_neg (by omega)]
    exact ⟨l, s, rfl, hg, by omega, ha⟩
  | succ fuel ih =>
    unfold NbdWire.extentsLoop
    by_cases hlt : l.offset < end_
    · rw [if_pos hlt]
      have hst := structured_of_base hss hb
      have hmax : maxStep = 2 ^ 31 := rfl
      have hla2 : min (end_ - l.offset) maxStep % E.ss.minBlock = 0 := by
        rcases Nat.le_total (end_ - l.offset) maxStep with h | h
        · rw [Nat.min_eq_left h]; exact aligned_sub hle hla hal
        · rw [Nat.min_eq_right h, hmax]; exact hmb
      have hfit : (Op.request s.conn.counter (.status l.offset (min (end_ - l.offset) maxStep))).Fits := by
        refine ⟨?_, ?_, ?_, ?_, ?_⟩ <;> simp only [Op.request] <;> omega
      obtain ⟨reply, s1, h1, h2, h3, h4⟩ := status_works (length := min (end_ - l.offset) maxStep) hw hst hs ha hfit
        (by omega) (by omega) ⟨by simpa [Op.request] using hla, by simpa [Op.request] using hla2⟩
      have hsame := status_same hp hm hs hst h2
      obtain ⟨exts, e1, e2, e3, e4⟩ := reply_extents hss h1 hb hd
      simp only [h2, e1]
      obtain ⟨a1, a2, a3⟩ := addReply_spec hg e2 hlt
      have hpos := bytes_length_pos e2 e3
      refine ih _ s1 hsame.synced (hsame.kept.size.trans hsz) h3 a1 (by omega) ?_ ?_ (by omega) (by omega)
      · rw [a3, List.length_append, List.length_take]
        omega
      · rw [a2]
        exact aligned_next hla hal e4
    · rw [if_neg hlt]
      exact ⟨l, s, rfl, hg, by omega, ha⟩

theorem extents_works {E : Env τ} (hp : Protocol E.server E.ss) {meta_ : τ → String → Nat → Nat}
    (hm : Reports E.server E.ss meta_) (hw : ReliableStatus E.server E.ss) (hss : E.ss.Sane)
    (hb : hasBaseAllocation E.ss = true) {dirty : Bool} (hd : dirty = true → E.ss.dirtyBitmap ≠ none)
    (hmb : 2 ^ 31 % E.ss.minBlock = 0) (s : NbdWire.State τ) (hs : Synced E s) (ha : s.alive = true)
    (hal : s.size % E.ss.minBlock = 0) (hpos : 0 < s.size) (hc : s.conn.counter + s.size ≤ 2 ^ 64) :
    ∃ exts s', NbdWire.extents E dirty s = (.ok (exts.map some), s') ∧ Pos exts ∧ s'.alive = true := by
  obtain ⟨l, s', h1, h2, h3, h4⟩ := extentsLoop_works hp hm hw hss hb hd hmb hal (by omega) s.size ⟨0, none, []⟩ s hs rfl ha
    ⟨.nil, fun _ => rfl⟩ (by simp) (by simp [Loop.all]) (by simp) (by simp) (by simpa using hc)
  obtain ⟨off, cur, out⟩ := l
  cases cur with
  | none =>
    have := h2.start rfl
    simp only at this
    subst this
    simp only [Loop.all, Option.toList_none, List.append_nil, bytes_nil, List.length_nil] at h3
    omega
  | some c =>
    refine ⟨out ++ [c], s', by simp [NbdWire.extents, h1], ?_, h4⟩
    have := h2.short
    simp only [Loop.all, Option.toList_some] at this
    exact shortest_pos this

/-- C62: a server without errors: the extents are reported, and the connection stays usable. -/
theorem C62_reported (E : Env τ) (hp : Protocol E.server E.ss) (meta_ : τ → String → Nat → Nat)
    (hm : Reports E.server E.ss meta_) (hw : ReliableStatus E.server E.ss) (hss : E.ss.Sane)
    (hmb : 2 ^ 31 % E.ss.minBlock = 0) (s : NbdWire.State τ) (hr : s.conn.rest = [])
    (hsz : s.size = (E.server.image s.srv).length) (ha : s.alive = true)
    (hal : s.size % E.ss.minBlock = 0) (hpos : 0 < s.size) (hc : s.conn.counter + s.size ≤ 2 ^ 64) :
    (∃ zs s', NbdWire.zeroExtents E s = (.ok zs, s') ∧ s'.alive = true) ∧
    (hasBaseAllocation E.ss = true → E.ss.dirtyBitmap ≠ none →
      ∃ ds s', NbdWire.dirtyExtents E s = (.ok ds, s') ∧ s'.alive = true) := by
  have hs : Synced E s := ⟨hr, hsz⟩
  constructor
  · unfold NbdWire.zeroExtents
    cases hb : hasBaseAllocation E.ss with
    | false => exact ⟨_, s, rfl, ha⟩
    | true =>
      obtain ⟨exts, s', h1, h2, h3⟩ := extents_works hp hm hw hss hb (dirty := false) nofun hmb s hs ha hal hpos hc
      obtain ⟨zs, hz, -⟩ := zeroExtents_spec h2 0
      exact ⟨zs, s', by simp [h1, hz], h3⟩
  · intro hb hd
    unfold NbdWire.dirtyExtents
    rw [if_neg hd]
    obtain ⟨exts, s', h1, h2, h3⟩ := extents_works hp hm hw hss hb (dirty := true) (fun _ => hd) hmb s hs ha hal hpos hc
    obtain ⟨zs, hz, -⟩ := dirtyExtents_spec h2 0
    exact ⟨zs, s', by simp [h1, hz], h3⟩

/-! ## A server with meta contexts -/

theorem be_cancel {k a b : Nat} {x y : Bytes} (ha : a < 256 ^ k) (hb : b < 256 ^ k) (h : be k a ++ x = be k b ++ y) :
    a = b ∧ x = y := by
  obtain ⟨h1, h2⟩ := List.append_inj h (by rw [be_length, be_length])
  refine ⟨?_, h2⟩
  have := field_one ha
  rw [h1, field_one hb] at this
  exact this.symm

theorem extents_inj {es es' : List (Nat × Nat)} (hf : ∀ e ∈ es, e.1 < 2 ^ 32 ∧ e.2 < 2 ^ 32)
    (hf' : ∀ e ∈ es', e.1 < 2 ^ 32 ∧ e.2 < 2 ^ 32)
    (h : (es.flatMap fun e => be 4 e.1 ++ be 4 e.2) = es'.flatMap fun e => be 4 e.1 ++ be 4 e.2) : es = es' := by
  induction es generalizing es' with
  | nil =>
    cases es' with
    | nil => rfl
    | cons e es' =>
      have := congrArg List.length h
      simp [be_length] at this
      omega
  | cons e es ih =>
    cases es' with
    | nil =>
      have := congrArg List.length h
      simp [be_length] at this
    | cons e' es' =>
      simp only [List.flatMap_cons, List.append_assoc] at h
      have f := hf e (by simp)
      have f' := hf' e' (by simp)
      obtain ⟨h1, h⟩ := be_cancel f.1 f'.1 h
      obtain ⟨h2, h⟩ := be_cancel f.2 f'.2 h
      rw [Prod.ext h1 h2, ih (fun x hx => hf x (by simp [hx])) (fun x hx => hf' x (by simp [hx])) h]

/-- The chunks that may be in a reply to a block status request are determined by their bytes. -/
theorem chunk_inj {ss : Session} {o l fl fl' handle : Nat} {c c' : NbdChunk} {x y : Bytes} (hfl : fl < 2 ^ 16)
    (hfl' : fl' < 2 ^ 16) (hf : c.Fits) (hf' : c'.Fits) (hl : Op.Legal ss (.status o l) c)
    (hl' : Op.Legal ss (.status o l) c') (h : c.wire handle fl ++ x = c'.wire handle fl' ++ y) :
    (fl, c) = (fl', c') ∧ x = y := by
  have ht : ∀ c : NbdChunk, c.type < 256 ^ 2 := by intro c; cases c <;> simp [NbdChunk.type]
  simp only [NbdChunk.wire, List.append_assoc] at h
  have h := List.append_cancel_left h
  obtain ⟨h1, h⟩ := be_cancel hfl hfl' h
  obtain ⟨h2, h⟩ := be_cancel (ht c) (ht c') h
  have h := List.append_cancel_left h
  obtain ⟨h3, h⟩ := be_cancel hf.1 hf'.1 h
  obtain ⟨h4, h⟩ := List.append_inj h h3
  refine ⟨?_, h⟩
  subst h1
  cases c <;> cases c' <;> simp only [Op.Legal, NbdChunk.type] at hl hl' h2 <;> try omega
  · rfl
  · simp only [NbdChunk.payload] at h4
    obtain ⟨h5, h6⟩ := be_cancel hf.2.1 hf'.2.1 h4
    rw [h5, extents_inj hf.2.2 hf'.2.2 h6]

theorem reply_inj {ss : Session} {o l handle : Nat} {r r' : NbdReply} (h : ∀ c ∈ r, c.1 < 2 ^ 16 ∧ c.2.Fits ∧
    Op.Legal ss (.status o l) c.2) (h' : ∀ c ∈ r', c.1 < 2 ^ 16 ∧ c.2.Fits ∧ Op.Legal ss (.status o l) c.2)
    (he : r.wire handle = r'.wire handle) : r = r' := by
  induction r generalizing r' with
  | nil =>
    cases r' with
    | nil => rfl
    | cons c r' =>
      have := congrArg List.length he
      simp [NbdReply.wire, NbdChunk.wire, be_length] at this
      omega
  | cons c r ih =>
    cases r' with
    | nil =>
      have := congrArg List.length he
      simp [NbdReply.wire, NbdChunk.wire, be_length] at this
    | cons c' r' =>
      obtain ⟨a1, a2, a3⟩ := h c (by simp)
      obtain ⟨b1, b2, b3⟩ := h' c' (by simp)
      simp only [NbdReply.wire, List.flatMap_cons] at he
      obtain ⟨e1, e2⟩ := chunk_inj a1 b1 a2 b2 a3 b3 he
      rw [show c = c' from e1, ih (fun x hx => h x (by simp [hx])) (fun x hx => h' x (by simp [hx])) e2]

theorem framed_flags {r : NbdReply} (h : r.Framed) : ∀ c ∈ r, c.1 < 2 ^ 16 := by
  induction h with
  | last c hf hd => simpa using hf
  | more c hf hd hc hr ih => simpa using ⟨hf, fun a b h => ih (a, b) h⟩

theorem isStatus_inj {ss : Session} {o l handle : Nat} {r r' : NbdReply} (h : r.IsStatus ss o l)
    (h' : r'.IsStatus ss o l) (he : r.wire handle = r'.wire handle) : r = r' :=
  reply_inj (fun c hc => ⟨framed_flags h.framed c hc, h.fits c hc, h.legal c hc⟩)
    (fun c hc => ⟨framed_flags h'.framed c hc, h'.fits c hc, h'.legal c hc⟩) he

/-- The name of the dirty bitmap of the sample. -/
def sampleBitmap : String := "qemu:dirty-bitmap:b1"

/-- The session with the sample server. -/
def mappedSession : Session := ⟨true, [(5, "base:allocation"), (9, sampleBitmap)], some sampleBitmap, 1, 0x44⟩

/-- The flags of the bytes of the sample: zero bytes are holes, every other byte is dirty. -/
def Sample.flags (v : Sample) (name : String) (k : Nat) : Nat :=
  if name = sampleBitmap then k % 2 else if byteAt v.image k = 0 then 3 else 0

/-- The sample server describes at most three bytes in one reply. -/
def Sample.described (v : Sample) (name : String) (offset length : Nat) : List (Nat × Nat) :=
  (List.range (min 3 length)).map fun j => (1, v.flags name (offset + j))

def Sample.statusReply (v : Sample) (offset length : Nat) : NbdReply :=
  [(0, .status 5 (v.described "base:allocation" offset length)), (1, .status 9 (v.described sampleBitmap offset length))]

/-- The sample server with meta contexts. -/
def Sample.mapped : NbdWire.Server Sample where
  step v b :=
    let offset := field b 16 8
    let length := field b 24 4
    if field b 6 2 = 7 then
      if 0 < length ∧ offset + length ≤ v.image.length then
        (v, ⟨(v.statusReply offset length).wire (field b 8 8), [5, 30], false⟩)
      else (v, ⟨NbdReply.wire (field b 8 8) [(1, .error 22 [])], [], false⟩)
    else (Sample.server true).step v b
  image v := v.image
  disk v := v.disk

theorem Sample.described_ok (v : Sample) (name : String) (ctx : Context) (offset : Nat) (n : List Nat) :
    ∃ xs, Extents.recvExtents 1 ctx (n.map fun j => (1, v.flags name (offset + j))) = .ok xs := by
  induction n with
  | nil => exact ⟨[], rfl⟩
  | cons j n ih =>
    obtain ⟨xs, hx⟩ := ih
    cases hu : Ext.unpack 1 (v.flags name (offset + j)) ctx with
    | error e => simp [Ext.unpack] at hu
    | ok e => exact ⟨e :: xs, by simp [Extents.recvExtents, hu, Nat.mod_one, hx]⟩

theorem Sample.flags_lt (v : Sample) (name : String) (k : Nat) : v.flags name k < 2 ^ 32 := by
  unfold Sample.flags
  split
  · omega
  · split <;> omega

theorem Sample.isStatus (v : Sample) {offset length : Nat} (h : 0 < length) :
    (v.statusReply offset length).IsStatus mappedSession offset length := by
  have hlen : ∀ name, (v.described name offset length).length = min 3 length := by
    intro name
    simp [Sample.described]
  have hfl : ∀ name, ∀ e ∈ v.described name offset length, e.1 < 2 ^ 32 ∧ e.2 < 2 ^ 32 := by
    intro name e he
    simp only [Sample.described, List.mem_map] at he
    obtain ⟨j, -, rfl⟩ := he
    exact ⟨by simp, Sample.flags_lt _ _ _⟩
  have hfits : ∀ ctx name, ctx < 2 ^ 32 → (NbdChunk.status ctx (v.described name offset length)).Fits := by
    intro ctx name hc
    refine ⟨?_, hc, hfl name⟩
    have : ∀ l : List (Nat × Nat), (l.flatMap fun e => be 4 e.1 ++ be 4 e.2).length = 8 * l.length := by
      intro l
      induction l with
      | nil => rfl
      | cons a l ih => simp only [List.flatMap_cons, List.length_append, be_length, ih, List.length_cons]; omega
    simp only [NbdChunk.payload, List.length_append, be_length, this, hlen]
    omega
  have hlegal : ∀ ctx name, mappedSession.contexts.lookup ctx = some name →
      Op.Legal mappedSession (.status offset length) (.status ctx (v.described name offset length)) := by
    intro ctx name hc
    refine ⟨?_, ?_, name, ?_⟩
    · intro hx
      have := hlen name
      rw [hx] at this
      simp at this
      omega
    · rw [hlen]
      have : 3 ≤ maxExtents := by decide
      omega
    · obtain ⟨xs, hx⟩ := Sample.described_ok v name (contextKind mappedSession name) offset (List.range (min 3 length))
      exact ⟨xs, hc, hx⟩
  refine ⟨?_, ?_, ?_, ?_, ?_⟩
  · exact .more _ (by decide) (by decide) nofun (.last _ (by decide) (by decide))
  · intro c hc
    simp only [Sample.statusReply, List.mem_cons, List.not_mem_nil, or_false] at hc
    rcases hc with rfl | rfl
    · exact hfits _ _ (by decide)
    · exact hfits _ _ (by decide)
  · intro c hc
    simp only [Sample.statusReply, List.mem_cons, List.not_mem_nil, or_false] at hc
    rcases hc with rfl | rfl
    · exact hlegal 5 _ rfl
    · exact hlegal 9 _ rfl
  · simp [Sample.statusReply, statusOf, mappedSession, List.filterMap, List.lookup, sampleBitmap]
  · intro ctx name hc
    simp only [mappedSession, List.lookup] at hc
    split at hc
    · cases hc
      exact ⟨_, List.mem_cons_self, _, rfl⟩
    · split at hc
      · cases hc
        exact ⟨_, List.mem_cons_of_mem _ List.mem_cons_self, _, rfl⟩
      · cases hc

theorem Sample.mapped_status (v : Sample) {handle offset length : Nat}
    (hf : (Op.request handle (.status offset length)).Fits) :
    Sample.mapped.step v (Op.request handle (.status offset length)).wire =
      if 0 < length ∧ offset + length ≤ v.image.length then
        (v, ⟨(v.statusReply offset length).wire handle, [5, 30], false⟩)
      else (v, ⟨NbdReply.wire handle [(1, .error 22 [])], [], false⟩) := by
  obtain ⟨-, f2, f3, f4, f5⟩ := request_fields hf
  simp only [Sample.mapped, f2, f3, f4, f5]
  rfl

theorem Sample.mapped_other (v : Sample) {handle : Nat} {op : Op} (hf : (op.request handle).Fits)
    (ho : ∀ offset length, op ≠ .status offset length) :
    Sample.mapped.step v ((op.request handle).wire ++ op.payload) =
      (Sample.server true).step v ((op.request handle).wire ++ op.payload) := by
  obtain ⟨-, f2, -⟩ := request_fields hf
  have hl := C25_length (op.request handle)
  simp only [Sample.mapped]
  rw [field_append (by omega), f2, if_neg]
  cases op <;> simp [Op.request] at ho ⊢

theorem Sample.mapped_protocol : Protocol Sample.mapped mappedSession := by
  intro v v' handle op r hall hf h
  by_cases ho : ∀ offset length, op ≠ .status offset length
  · rw [Sample.mapped_other v hf ho] at h
    obtain ⟨h1, h2⟩ := Sample.protocol mappedSession v v' handle op r hall hf h
    refine ⟨?_, h2⟩
    cases h1 with
    | done out hans hin hout hlen hst hflush => exact .done out hans hin hout hlen hst hflush
    | failed e hans himg => exact .failed e hans himg
    | lost more o hmore hans hclosed himg => exact .lost more o hmore hans hclosed himg
  · have : ∃ offset length, op = .status offset length := by
      apply Classical.byContradiction
      intro hx
      exact ho fun o l h => hx ⟨o, l, h⟩
    obtain ⟨offset, length, rfl⟩ := this
    simp only [Op.payload, List.append_nil] at h
    rw [Sample.mapped_status v hf] at h
    split at h
    · rename_i hin
      cases h
      exact ⟨.done _ (.status _ rfl (v.isStatus hin.1)) hin.2 trivial rfl rfl nofun, rfl⟩
    · cases h
      exact ⟨.failed _ (Sample.fail_answers hall) (Confined.refl _ _), rfl⟩

theorem Sample.mapped_reports : Reports Sample.mapped mappedSession Sample.flags := by
  intro v v' handle offset length r reply hf h
  rw [Sample.mapped_status v hf] at h
  split at h
  · rename_i hin
    cases h
    refine ⟨rfl, fun hb hr c hc name es hs => ?_⟩
    have := isStatus_inj (v.isStatus hin.1) hr hb
    subst this
    have hd : ∀ name, Spec.Describes (v.flags name) v.image.length offset (v.described name offset length) := by
      intro name j hj _
      have : ∀ n : List Nat, expand (n.map fun j => (1, v.flags name (offset + j))) =
          n.map fun j => v.flags name (offset + j) := by
        intro n
        induction n with
        | nil => rfl
        | cons a n ih =>
          simp only [expand, List.map_cons, List.flatMap_cons] at ih ⊢
          rw [ih]
          rfl
      simp only [Sample.described, this] at hj ⊢
      simp
    simp only [Sample.statusReply, List.mem_cons, List.not_mem_nil, or_false] at hc
    rcases hc with rfl | rfl
    · have : statusOf mappedSession (.status 5 (v.described "base:allocation" offset length)) =
        some ("base:allocation", v.described "base:allocation" offset length) := rfl
      rw [this] at hs
      cases hs
      exact hd _
    · have : statusOf mappedSession (.status 9 (v.described sampleBitmap offset length)) =
        some (sampleBitmap, v.described sampleBitmap offset length) := rfl
      rw [this] at hs
      cases hs
      exact hd _
  · cases h
    refine ⟨rfl, fun hb hr c hc name es hs => ?_⟩
    exfalso
    cases reply with
    | nil => cases hc
    | cons c' reply =>
      have hleg := hr.legal c' (by simp)
      have hfl := framed_flags hr.framed c' (by simp)
      have ht : ∀ c : NbdChunk, c.type < 256 ^ 2 := by intro c; cases c <;> simp [NbdChunk.type]
      simp only [NbdReply.wire, List.flatMap_cons, NbdChunk.wire, List.append_assoc] at hb
      have hb := List.append_cancel_left hb
      obtain ⟨-, hb⟩ := be_cancel (by decide) hfl hb
      obtain ⟨hb, -⟩ := be_cancel (ht _) (ht _) hb
      obtain ⟨fl, c'⟩ := c'
      cases c' <;> simp [Op.Legal, NbdChunk.type] at hleg hb

theorem Sample.mapped_zero : ZeroFlags Sample.mapped Sample.flags := by
  intro v k _ h
  have hne : ("base:allocation" : String) ≠ sampleBitmap := by decide
  simp only [Sample.flags, if_neg hne] at h
  split at h
  · assumption
  · simp at h

theorem Sample.mapped_reliable : ReliableStatus Sample.mapped mappedSession := by
  intro v v' handle offset length r hf hl hin _ h
  rw [Sample.mapped_status v hf, if_pos ⟨hl, hin⟩] at h
  cases h
  exact ⟨⟨_, v.isStatus hl, rfl⟩, rfl⟩

theorem mappedSession_sane : mappedSession.Sane where
  structured _ := rfl
  ids c hc := by
    simp only [mappedSession, List.mem_cons, List.not_mem_nil, or_false] at hc
    rcases hc with rfl | rfl <;> rfl
  bitmap b hb := by
    cases hb
    exact ⟨by decide, by decide, 9, by simp [mappedSession]⟩

/-- The environment of the sample server with meta contexts. -/
def mappedEnv : Env Sample := ⟨Sample.mapped, mappedSession, fun h i => UInt8.ofNat (h + i + 7)⟩

/-- A backend with this server. -/
def mappedStart : NbdWire.State Sample :=
  ⟨.rw, true, 1, 7, ⟨[], [], [], 5⟩, true, ⟨[0, 2, 0, 0, 0, 6, 0], [], []⟩⟩

/-- The hypotheses of the theorems hold for this server. -/
example : Protocol mappedEnv.server mappedEnv.ss ∧ Reports mappedEnv.server mappedEnv.ss Sample.flags ∧
    ZeroFlags mappedEnv.server Sample.flags ∧ ReliableStatus mappedEnv.server mappedEnv.ss ∧ mappedEnv.ss.Sane ∧
    mappedStart.conn.rest = [] ∧ mappedStart.size = (mappedEnv.server.image mappedStart.srv).length ∧
    0 < mappedStart.size ∧ mappedStart.alive = true ∧ mappedStart.size % mappedEnv.ss.minBlock = 0 ∧
    2 ^ 31 % mappedEnv.ss.minBlock = 0 ∧ hasBaseAllocation mappedEnv.ss = true ∧ mappedEnv.ss.dirtyBitmap ≠ none ∧
    mappedStart.conn.counter + mappedStart.size ≤ 2 ^ 64 :=
  ⟨Sample.mapped_protocol, Sample.mapped_reports, Sample.mapped_zero, Sample.mapped_reliable, mappedSession_sane,
    rfl, rfl, by decide, rfl, by decide, by decide, by decide, by decide, by decide⟩

/-- The server sends three replies; the extents are joined over the borders of the replies. -/
example : (NbdWire.zeroExtents mappedEnv mappedStart).1.toOption =
    some [⟨0, 1, true, some false⟩, ⟨1, 1, false, some false⟩, ⟨2, 3, true, some false⟩, ⟨5, 1, false, some false⟩,
      ⟨6, 1, true, some false⟩] := by decide +kernel

/-- Every other byte is dirty. -/
example : ((NbdWire.dirtyExtents mappedEnv mappedStart).1.toOption.map fun l => l.map fun d => (d.start, d.length, d.dirty, d.zero)) =
    some [(0, 1, false, true), (1, 1, true, false), (2, 1, false, true), (3, 1, true, true), (4, 1, false, true),
      (5, 1, true, false), (6, 1, false, true)] := by decide +kernel

end Imageio.Props
