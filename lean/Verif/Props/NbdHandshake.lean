import Verif.Lemmas.NbdHandshake
/-!
C54: the handshake of the NBD client.
-/
namespace Imageio.Props
open Imageio.Nbd Imageio.Spec

/-- The attributes of the client are what the server said. -/
structure Described (h : Handshake) (dirty : Bool) (c : Client) : Prop where
  structured : c.session.structured = true ↔ h.structured = none
  size : ∃ flags, h.export_ = some (c.exportSize, flags)
  flags : ∃ size, h.export_ = some (size, c.session.transmissionFlags)
  blocks : h.blockSizes = (c.session.minBlock, c.preferredBlock, c.maximumBlock)
  allocation : c.hasBaseAllocation = true ↔ ∃ id, ("base:allocation", id) ∈ h.selected
  depth : c.hasAllocationDepth = true ↔ ∃ id, ("qemu:allocation-depth", id) ∈ h.selected
  bitmap : ∀ b, c.session.dirtyBitmap = some b ↔ h.bitmap dirty = some b ∧ ∃ id, (b, id) ∈ h.selected
  names : ∀ id name, c.session.contexts.lookup id = some name → (name, id) ∈ h.selected
  ids : (h.selected.map (·.2)).Nodup → ∀ id name, (name, id) ∈ h.selected →
    c.session.contexts.lookup id = some name
  contexts : ∀ id name, (id, name) ∈ c.session.contexts ↔ (name, id) ∈ h.selected

theorem lookup_isSome_iff {α β : Type} [BEq α] [LawfulBEq α] (l : List (α × β)) (a : α) :
    (l.lookup a).isSome = true ↔ ∃ b, (a, b) ∈ l := by
  induction l with
  | nil => simp
  | cons x l ih =>
    rw [List.lookup_cons]
    by_cases hx : a == x.1
    · have : a = x.1 := by simpa using hx
      subst this
      simp only [BEq.rfl, Option.isSome_some, true_iff]
      exact ⟨x.2, by simp⟩
    · simp only [hx]
      rw [Bool.not_eq_true] at hx
      have hne : a ≠ x.1 := by simpa using hx
      rw [ih]
      constructor
      · rintro ⟨b, hb⟩; exact ⟨b, by simp [hb]⟩
      · rintro ⟨b, hb⟩
        rcases List.mem_cons.1 hb with rfl | hb
        · exact absurd rfl hne
        · exact ⟨b, hb⟩

theorem lookup_mem {α β : Type} [BEq α] [LawfulBEq α] {l : List (α × β)} {a : α} {b : β} (h : l.lookup a = some b) :
    (a, b) ∈ l := by
  induction l with
  | nil => simp at h
  | cons x l ih =>
    rw [List.lookup_cons] at h
    split at h
    · rename_i he
      have : a = x.1 := by simpa using he
      subst this
      obtain rfl : x.2 = b := by simpa using h
      simp
    · exact List.mem_cons_of_mem _ (ih h)

theorem lookup_of_mem {α β : Type} [BEq α] [LawfulBEq α] {l : List (α × β)} (hn : (l.map (·.1)).Nodup) {a : α} {b : β}
    (h : (a, b) ∈ l) : l.lookup a = some b := by
  induction l with
  | nil => simp at h
  | cons x l ih =>
    rw [List.map_cons, List.nodup_cons] at hn
    rw [List.lookup_cons]
    rcases List.mem_cons.1 h with rfl | h
    · simp
    · have : a ≠ x.1 := by
        rintro rfl
        exact hn.1 (List.mem_map.2 ⟨(x.1, b), h, rfl⟩)
      have hb : (a == x.1) = false := by simpa using this
      rw [hb]
      exact ih hn.2 h

theorem described {h : Handshake} {dirty : Bool} {c : Client} (hv : h.Valid dirty) (hc : Connected h dirty c) :
    Described h dirty c := by
  obtain ⟨h1, h2, h3, h4⟩ := hc
  have hsel : c.names = h.selected.reverse ∧ c.session.contexts = h.selected.reverse.map (fun c => (c.2, c.1)) ∧
      ∀ b, c.session.dirtyBitmap = some b ↔ h.bitmap dirty = some b ∧ ∃ id, (b, id) ∈ h.selected := by
    unfold storedContexts register at h2
    unfold Handshake.selected
    by_cases hs : h.structured = none
    · rw [if_pos hs] at h2
      simp only [Prod.mk.injEq] at h2
      obtain ⟨e1, e2, e3⟩ := h2
      refine ⟨by rw [e1, if_pos hs], by rw [e2, if_pos hs], fun b => ?_⟩
      rw [if_pos hs, e3]
      have hw := hv.wanted hs
      have hq : ∀ b, rawBitmap h.list dirty = some b → b ≠ "" → h.bitmap dirty = some b := by
        intro b hb hne
        unfold rawBitmap at hb
        unfold Handshake.bitmap
        grind
      have hq' : ∀ b, h.bitmap dirty = some b → rawBitmap h.list dirty = some b := by
        intro b hb
        unfold rawBitmap
        unfold Handshake.bitmap at hb
        grind
      have hmem : ∀ b, (∃ id, (b, id) ∈ h.set.contexts) → b ≠ "" := by
        rintro b ⟨id, hid⟩ rfl
        have := hw _ hid
        unfold Handshake.queries Handshake.bitmap at this
        grind
      have hany : (h.set.contexts.any fun c => some c.1 == rawBitmap h.list dirty) = true ↔
          ∃ b, rawBitmap h.list dirty = some b ∧ ∃ id, (b, id) ∈ h.set.contexts := by
        rw [List.any_eq_true]
        constructor
        · rintro ⟨x, hx, he⟩
          exact ⟨x.1, (eq_of_beq he).symm, x.2, hx⟩
        · rintro ⟨b, hb, id, hid⟩
          exact ⟨(b, id), hid, by simp [hb]⟩
      constructor
      · intro hb
        split at hb
        · rename_i ha
          obtain ⟨b', hb', hid⟩ := hany.1 ha
          rw [hb'] at hb
          obtain rfl : b' = b := by simpa using hb
          exact ⟨hq _ hb' (hmem _ hid), hid⟩
        · simp at hb
      · rintro ⟨hb, hid⟩
        rw [if_pos (hany.2 ⟨b, hq' b hb, hid⟩), hq' b hb]
    · rw [if_neg hs] at h2
      simp only [Prod.mk.injEq] at h2
      obtain ⟨e1, e2, e3⟩ := h2
      refine ⟨by rw [e1, if_neg hs]; rfl, by rw [e2, if_neg hs]; rfl, fun b => ?_⟩
      rw [if_neg hs, e3]
      simp
  obtain ⟨e1, e2, e3⟩ := hsel
  refine ⟨by simp [h1], ⟨_, h3⟩, ⟨_, h3⟩, h4.symm, ?_, ?_, e3, ?_, ?_, ?_⟩
  · unfold Client.hasBaseAllocation
    rw [e1, lookup_isSome_iff]
    simp [baseAllocation]
  · unfold Client.hasAllocationDepth
    rw [e1, lookup_isSome_iff]
    simp [allocationDepth]
  · intro id name hl
    rw [e2] at hl
    have := lookup_mem hl
    grind
  · intro hn id name hm
    rw [e2]
    refine lookup_of_mem ?_ ?_
    · rw [List.map_map, ← List.map_reverse.symm]
      grind
    · exact List.mem_map.2 ⟨(name, id), List.mem_reverse.2 hm, rfl⟩
  · intro id name
    rw [e2]
    simp

/-- A handshake of the protocol succeeds, whatever the fragmentation: the client has exactly what the
server said, has sent exactly the options of the protocol, and has consumed exactly the handshake. -/
theorem C54_succeeds {h : Handshake} {dirty : Bool} {name : String} (hv : h.Valid dirty)
    (hs : h.Sendable dirty name) {s : Conn} {t : Bytes} (hr : s.rest = h.wire dirty ++ t) :
    ∃ c s', connect name dirty s = (.ok c, s') ∧ Described h dirty c ∧ s'.rest = t ∧
      s'.sent = s.sent ++ h.clientWire dirty name := by
  obtain ⟨e, he⟩ := Option.isSome_iff_exists.1 hv.described
  let c : Client :=
    { session := ⟨decide (h.structured = none), (storedContexts h dirty).2.1, (storedContexts h dirty).2.2, h.blockSizes.1, e.2⟩
      names := (storedContexts h dirty).1, exportSize := e.1
      preferredBlock := h.blockSizes.2.1, maximumBlock := h.blockSizes.2.2 }
  have hc : Connected h dirty c := ⟨rfl, rfl, he, rfl⟩
  obtain ⟨s', e1, a1⟩ := (parses_handshake name dirty).fwd ⟨h, hv, hs, rfl, rfl, hc⟩ hr
  exact ⟨c, s', by rw [connect, e1], described hv hc, a1.rest, a1.sent⟩

/-- Whatever the server sends, a client that connected has consumed a handshake of the protocol, and
has exactly what that handshake says. -/
theorem C54_only {name : String} {dirty : Bool} {s s' : Conn} {c : Client} (hc : connect name dirty s = (.ok c, s')) :
    ∃ h : Handshake, h.Valid dirty ∧ s.rest = h.wire dirty ++ s'.rest ∧ Described h dirty c ∧
      s'.sent = s.sent ++ h.clientWire dirty name := by
  have he : handshake name dirty s = (.ok c, s') := by
    unfold connect at hc
    split at hc
    · rename_i heq; rw [heq]; exact hc
    · simp at hc
  obtain ⟨w, o, ⟨h, hv, -, rfl, rfl, hc⟩, hr, hs⟩ := (parses_handshake name dirty).sent he
  exact ⟨h, hv, hr, described hv hc, hs⟩

/-- A stream that does not start with a handshake of the protocol is refused, and the last thing sent
is `NBD_OPT_ABORT`. -/
theorem C54_refused {name : String} {dirty : Bool} {s : Conn}
    (hn : ∀ h : Handshake, h.Valid dirty → ∀ t, s.rest ≠ h.wire dirty ++ t) :
    ∃ e s' sent, connect name dirty s = (.error e, s') ∧ s'.sent = sent ++ optionWire 2 [] := by
  cases hc : connect name dirty s with
  | mk r s' =>
    cases r with
    | ok c =>
      obtain ⟨h, hv, hr, -⟩ := C54_only hc
      exact absurd hr (hn h hv _)
    | error e =>
      unfold connect at hc
      split at hc
      · simp at hc
      · rename_i e' s1 heq
        obtain ⟨s2, e2, a2⟩ := (parses_sendOption optAbort []).fwd (s := s1) (w := []) (o := optionWire 2 []) (a := ())
          (t := s1.rest) (by simp [optAbort, optionWire]) rfl
        rw [e2] at hc
        simp only [Prod.mk.injEq] at hc
        exact ⟨e, s', s1.sent, rfl, by rw [← hc.2, a2.sent]⟩

/-- The handshake ends for every server: the client never waits for a reply after the stream ended,
and no sequence of replies keeps it in a loop. -/
theorem C54_ends (name : String) (dirty : Bool) (s : Conn) : (connect name dirty s).1 ≠ .error .stuck := by
  have := (ends_handshake (n := s.rest.length) name dirty s (Nat.le_refl _)).2
  unfold connect
  split
  · simp
  · rename_i e s1 heq
    rw [heq] at this
    cases sendOption optAbort [] s1
    simpa using this

/-- The dirty bitmap that is used is one that the server listed as its only one. -/
theorem C54_bitmap {name : String} {dirty : Bool} {s s' : Conn} {c : Client} {b : String}
    (hc : connect name dirty s = (.ok c, s')) (hb : c.session.dirtyBitmap = some b) :
    dirty = true ∧ ∃ (h : Handshake) (id : Nat), h.Valid dirty ∧ s.rest = h.wire dirty ++ s'.rest ∧
      h.list.contexts = [(b, id)] ∧ ∃ id', (b, id') ∈ h.set.contexts := by
  obtain ⟨h, hv, hr, hd, -⟩ := C54_only hc
  obtain ⟨h1, id', hid⟩ := (hd.bitmap b).1 hb
  unfold Handshake.selected at hid
  have hst : h.structured = none := by
    by_contra hx
    rw [if_neg hx] at hid
    simp at hid
  rw [if_pos hst] at hid
  unfold Handshake.bitmap at h1
  split at h1
  · rename_i c' hl
    split at h1
    · simp at h1
    · simp only [Option.some.injEq] at h1
      subst h1
      exact ⟨rfl, h, c'.2, hv, hr, hl, id', hid⟩
  · simp at h1

/-! ## A concrete handshake -/

/-- A server with one dirty bitmap. -/
def sampleHandshake : Handshake where
  flags := 3
  structured := none
  list := ⟨[("qemu:dirty-bitmap:b0", 0)], none⟩
  set := ⟨[("base:allocation", 0), ("qemu:allocation-depth", 1), ("qemu:dirty-bitmap:b0", 2)], none⟩
  infos := [.other 1 [0x61], .export_ 65536 0x8d, .blockSize 1 4096 33554432]

theorem sample_valid : sampleHandshake.Valid true :=
  ⟨by decide, by decide, fun _ _ => by decide +kernel, fun _ => by decide +kernel, fun _ => by decide +kernel,
    by decide +kernel, by decide⟩

theorem sample_sendable : sampleHandshake.Sendable true "disk" := by decide +kernel

/-- The hypotheses of `C54_succeeds` hold, with a first reply of the transmission phase after the
handshake. -/
example : ∃ c s', connect "disk" true ⟨sampleHandshake.wire true ++ [1, 2, 3], [1, 2, 300], [], 0⟩ = (.ok c, s') ∧
    Described sampleHandshake true c ∧ s'.rest = [1, 2, 3] ∧
    s'.sent = [] ++ sampleHandshake.clientWire true "disk" :=
  C54_succeeds sample_valid sample_sendable rfl

example : (sampleHandshake.selected.map (·.2)).Nodup := by decide

/-- A stream that is not a handshake: the magic is wrong. -/
example : ∃ e s' sent, connect "disk" true ⟨[1, 2, 3], [], [], 0⟩ = (.error e, s') ∧ s'.sent = sent ++ optionWire 2 [] :=
  C54_refused fun h _ t hx => by
    have := congrArg List.length hx
    simp only [Handshake.wire, greeting, List.length_append, be_length, List.length_cons, List.length_nil] at this
    omega

/-! ## What the client does not check -/

/-- A server that lists a context which is not a dirty bitmap. -/
def wrongBitmap : Handshake :=
  { sampleHandshake with
    list := ⟨[("base:allocation", 0)], none⟩
    set := ⟨[("base:allocation", 0)], none⟩ }

/-- The names of the listed contexts are not checked: the allocation of the server becomes the dirty
bitmap of the client. -/
theorem C54_bitmap_name_counterexample : ∃ (s : Conn) (c : Client) (s' : Conn),
    connect "disk" true s = (.ok c, s') ∧ c.session.dirtyBitmap = some "base:allocation" := by
  have hv : wrongBitmap.Valid true :=
    ⟨by decide, by decide, fun _ _ => by decide +kernel, fun _ => by decide +kernel, fun _ => by decide +kernel,
      by decide +kernel, by decide⟩
  have hs : wrongBitmap.Sendable true "disk" := by decide +kernel
  obtain ⟨c, s', h1, h2, -⟩ := C54_succeeds hv hs (s := ⟨wrongBitmap.wire true ++ [], [], [], 0⟩) (t := []) rfl
  exact ⟨_, c, s', h1, (h2.bitmap _).2 ⟨by decide, 0, by decide⟩⟩

/-- A server that gives two contexts the same id. -/
def sameId : Handshake :=
  { sampleHandshake with
    set := ⟨[("base:allocation", 7), ("qemu:allocation-depth", 7)], none⟩ }

/-- The ids of the contexts are not checked: a reply with the extents of `base:allocation` is taken for
`qemu:allocation-depth`. -/
theorem C54_same_id_counterexample : ∃ (h : Handshake) (s : Conn) (c : Client) (s' : Conn), h.Valid false ∧
    connect "disk" false s = (.ok c, s') ∧ s.rest = h.wire false ∧ ("base:allocation", 7) ∈ h.selected ∧
    c.session.contexts.lookup 7 = some "qemu:allocation-depth" := by
  have hv : sameId.Valid false :=
    ⟨by decide, by decide, by decide, fun _ => by decide +kernel, fun _ => by decide +kernel,
      by decide +kernel, by decide⟩
  have hs : sameId.Sendable false "disk" := by decide +kernel
  have hc : Connected sameId false
      { session := ⟨true, (storedContexts sameId false).2.1, none, 1, 0x8d⟩
        names := (storedContexts sameId false).1, exportSize := 65536
        preferredBlock := 4096, maximumBlock := 33554432 } :=
    ⟨by decide, by decide, by decide, by decide⟩
  obtain ⟨s', e1, -⟩ := (parses_handshake "disk" false).fwd (s := ⟨sameId.wire false, [], [], 0⟩) (t := [])
    ⟨sameId, hv, hs, rfl, rfl, hc⟩ (by simp)
  exact ⟨sameId, _, _, s', hv, by rw [connect, e1], rfl, by decide, by decide⟩

end Imageio.Props
