import Verif.Spec.UnixServers
/-!
C98: unix servers on one host.
-/
namespace Imageio.Props
open Imageio.UnixServers Imageio.UnixServers.Spec

theorem put_same {α β : Type} [DecidableEq α] (f : α → β) (a : α) (b : β) : put f a b a = b := by simp [put]

theorem put_other {α β : Type} [DecidableEq α] (f : α → β) {a x : α} (b : β) (h : x ≠ a) : put f a b x = f x := by simp [put, h]

theorem removeSocket_ok {may : Bool} {a : List Char} {fs fs' : List Char → Option Node} (h : removeSocket may a fs = .ok fs') :
    fs' a = none ∧ ∀ x, x ≠ a → fs' x = fs x := by
  unfold removeSocket at h
  split at h
  · rename_i hn
    cases h
    exact ⟨hn, fun _ _ => rfl⟩
  · cases h
  · split at h
    · cases h
      exact ⟨put_same .., fun x hx => put_other _ _ hx⟩
    · cases h

/-- Servers and abstract addresses agree. -/
structure AbsInv (w : UnixServers.World) : Prop where
  used : ∀ i s, w.servers i = some s → isPath s.addr = false → w.abs s.addr = some i
  owner : ∀ a i, w.abs a = some i → ∃ s, w.servers i = some s ∧ s.addr = a ∧ isPath a = false

theorem absInv_step {w : UnixServers.World} (h : AbsInv w) (e : UnixServers.Event) : AbsInv (UnixServers.step w e) := by
  cases e with
  | start i a uuid may can =>
    simp only [UnixServers.step, UnixServers.start]
    split
    · exact h
    · rename_i hi
      generalize address a uuid = b
      split
      · rename_i hp
        split
        · exact h
        · split
          · constructor
            · intro j s hs hab
              by_cases hj : j = i
              · subst hj
                simp only [put_same] at hs
                cases hs
                rw [hp] at hab
                cases hab
              · simp only [put_other _ _ hj] at hs
                exact h.used j s hs hab
            · intro x j hx
              obtain ⟨s, h1, h2, h3⟩ := h.owner x j hx
              have hj : j ≠ i := by
                rintro rfl
                rw [hi] at h1
                cases h1
              exact ⟨s, by simpa only [put_other _ _ hj] using h1, h2, h3⟩
          · exact ⟨h.used, h.owner⟩
      · rename_i hp
        split
        · exact h
        · rename_i hfree
          constructor
          · intro j s hs hab
            by_cases hj : j = i
            · subst hj
              simp only [put_same] at hs
              cases hs
              exact put_same ..
            · simp only [put_other _ _ hj] at hs
              have := h.used j s hs hab
              have hne : s.addr ≠ b := by
                intro he
                rw [he, hfree] at this
                cases this
              simpa only [put_other _ _ hne] using this
          · intro x j hx
            by_cases hxb : x = b
            · subst hxb
              simp only [put_same] at hx
              cases hx
              exact ⟨⟨x, true⟩, put_same .., rfl, by simpa using hp⟩
            · simp only [put_other _ _ hxb] at hx
              obtain ⟨s, h1, h2, h3⟩ := h.owner x j hx
              have hj : j ≠ i := by
                rintro rfl
                rw [hi] at h1
                cases h1
              exact ⟨s, by simpa only [put_other _ _ hj] using h1, h2, h3⟩
  | stop i may =>
    have key : ∀ (s : UnixServers.Server) (fs : List Char → Option Node), w.servers i = some s →
        AbsInv { w with fs := fs, servers := put w.servers i (some { s with serving := false }) } := by
      intro s fs hs
      constructor
      · intro j t ht hab
        by_cases hj : j = i
        · subst hj
          simp only [put_same] at ht
          cases ht
          exact h.used j s hs hab
        · simp only [put_other _ _ hj] at ht
          exact h.used j t ht hab
      · intro x j hx
        obtain ⟨t, h1, h2, h3⟩ := h.owner x j hx
        by_cases hj : j = i
        · subst hj
          rw [hs] at h1
          cases h1
          exact ⟨_, put_same .., h2, h3⟩
        · exact ⟨t, by simpa only [put_other _ _ hj] using h1, h2, h3⟩
    simp only [UnixServers.step, UnixServers.stop]
    split
    · exact h
    · rename_i s hs
      split
      · split
        · exact h
        · exact key s _ hs
      · exact key s w.fs hs
  | exit i =>
    simp only [UnixServers.step, UnixServers.exit]
    split
    · exact h
    · rename_i s hs
      constructor
      · intro j t ht hab
        have hj : j ≠ i := by
          rintro rfl
          simp only [put_same] at ht
          cases ht
        simp only [put_other _ _ hj] at ht
        have := h.used j t ht hab
        split
        · exact this
        · rename_i hp
          have hne : t.addr ≠ s.addr := by
            intro he
            have h2 := h.used i s hs (by simpa using hp)
            rw [he, h2] at this
            cases this
            exact hj rfl
          simpa only [put_other _ _ hne] using this
      · intro x j hx
        have hx' : w.abs x = some j ∧ j ≠ i := by
          split at hx
          · rename_i hp
            refine ⟨hx, ?_⟩
            rintro rfl
            obtain ⟨t, h1, h2, h3⟩ := h.owner x j hx
            rw [hs] at h1
            cases h1
            rw [← h2, hp] at h3
            cases h3
          · by_cases hxs : x = s.addr
            · subst hxs
              simp only [put_same] at hx
              cases hx
            · simp only [put_other _ _ hxs] at hx
              refine ⟨hx, ?_⟩
              rintro rfl
              obtain ⟨t, h1, h2, h3⟩ := h.owner x j hx
              rw [hs] at h1
              cases h1
              exact hxs h2.symm
        obtain ⟨t, h1, h2, h3⟩ := h.owner x j hx'.1
        exact ⟨t, by simpa only [put_other _ _ hx'.2] using h1, h2, h3⟩

theorem absInv_run : ∀ (evs : List UnixServers.Event) (w : UnixServers.World), AbsInv w → AbsInv (UnixServers.run w evs)
  | [], _, h => h
  | e :: r, w, h => absInv_run r (UnixServers.step w e) (absInv_step h e)

theorem absInv_init (fs : List Char → Option Node) : AbsInv (World.init fs) := ⟨nofun, nofun⟩

/-- A server at an abstract address gets every connection to this address, whatever the other processes do, as long as its
process lives. -/
theorem C98_abstract {fs : List Char → Option Node} {evs : List UnixServers.Event} {i : Nat} {a : List Char} {s : Bool}
    (hi : (UnixServers.run (World.init fs) evs).servers i = some ⟨a, s⟩) (ha : isPath a = false) :
    connect a (UnixServers.run (World.init fs) evs) = some i := by
  have h := absInv_run evs _ (absInv_init fs)
  unfold connect
  rw [if_neg (by simp [ha])]
  exact h.used i _ hi ha

/-- The server that has the address keeps it: starting another one fails and changes nothing. -/
theorem C98_abstract_in_use {fs : List Char → Option Node} {evs : List UnixServers.Event} {i j : Nat} {a uuid : List Char}
    {s may can : Bool} (hi : (UnixServers.run (World.init fs) evs).servers i = some ⟨a, s⟩) (ha : isPath a = false)
    (hj : (UnixServers.run (World.init fs) evs).servers j = none) :
    UnixServers.start j a uuid may can (UnixServers.run (World.init fs) evs) =
      (.error "EADDRINUSE", UnixServers.run (World.init fs) evs) := by
  have h := (absInv_run evs _ (absInv_init fs)).used i _ hi ha
  have hne : a ≠ [] := by
    rintro rfl
    cases ha
  unfold UnixServers.start
  rw [hj]
  have : address a uuid = a := by simp [address, hne]
  simp only [this, ha, Bool.false_eq_true, if_false]
  simp only at h
  rw [h]

/-- Two servers at abstract addresses. -/
example : ∀ w, w = UnixServers.run (World.init fun _ => none)
        [.start 1 ['\x00', 'a'] [] true true, .start 2 [] ['u'] true true, .start 3 ['\x00', 'a'] [] true true, .exit 2] →
    connect ['\x00', 'a'] w = some 1 ∧ connect ['\x00', 'u'] w = none ∧ w.servers 3 = none := by
  rintro w rfl
  refine ⟨?_, ?_, ?_⟩ <;> decide

/-- Only one process has servers at a path, and its socket is there while it is running. -/
structure PathInv (i : Nat) (a : List Char) (w : UnixServers.World) : Prop where
  only : ∀ j s, w.servers j = some s → s.addr = a → j = i
  there : RunsAt w i a → w.fs a = some (.socket i)

theorem pathInv_step {w : UnixServers.World} {i : Nat} {a : List Char} (ha : isPath a = true) (h : PathInv i a w)
    (e : UnixServers.Event) (he : OnlyAt i a [e]) : PathInv i a (UnixServers.step w e) := by
  cases e with
  | start j a' uuid may can =>
    have hj : address a' uuid = a → j = i := by
      intro hadr
      refine he j a' uuid may can (by simp) ?_
      unfold address at hadr
      split at hadr
      · rename_i hn
        exact .inr ⟨hn, hadr.symm⟩
      · exact .inl hadr
    simp only [UnixServers.step, UnixServers.start]
    split
    · exact h
    · rename_i hi
      generalize hb : address a' uuid = b at hj
      split
      · split
        · exact h
        · rename_i fs hr
          obtain ⟨hr1, hr2⟩ := removeSocket_ok hr
          split
          · constructor
            · intro k s hs hab
              by_cases hk : k = j
              · subst hk
                simp only [put_same] at hs
                cases hs
                exact hj hab
              · simp only [put_other _ _ hk] at hs
                exact h.only k s hs hab
            · intro hrun
              by_cases hab : b = a
              · obtain rfl := hj hab
                subst hab
                exact put_same ..
              · have hij : i ≠ j := by
                  rintro rfl
                  simp only [RunsAt, put_same] at hrun
                  cases hrun
                  exact hab rfl
                simp only [RunsAt, put_other _ _ hij] at hrun
                simp only [put_other _ _ (Ne.symm hab), hr2 a (Ne.symm hab)]
                exact h.there hrun
          · refine ⟨h.only, fun hrun => ?_⟩
            have hrun : RunsAt w i a := hrun
            by_cases hab : a = b
            · obtain rfl := hj hab.symm
              have hrun' : w.servers j = some ⟨a, true⟩ := hrun
              rw [hi] at hrun'
              cases hrun'
            · simp only [hr2 a hab]
              exact h.there hrun
      · rename_i hp
        split
        · exact h
        · constructor
          · intro k s hs hab
            by_cases hk : k = j
            · subst hk
              simp only [put_same] at hs
              cases hs
              exact hj hab
            · simp only [put_other _ _ hk] at hs
              exact h.only k s hs hab
          · intro hrun
            by_cases hij : i = j
            · subst hij
              simp only [RunsAt, put_same] at hrun
              cases hrun
              exact absurd ha hp
            · simp only [RunsAt, put_other _ _ hij] at hrun
              exact h.there hrun
  | stop j may =>
    simp only [UnixServers.step, UnixServers.stop]
    split
    · exact h
    · rename_i s hs
      have honly : ∀ k t, put w.servers j (some { s with serving := false }) k = some t → t.addr = a → k = i := by
        intro k t ht hab
        by_cases hk : k = j
        · subst hk
          rw [put_same] at ht
          cases ht
          exact h.only k s hs hab
        · rw [put_other _ _ hk] at ht
          exact h.only k t ht hab
      have hrun : put w.servers j (some { s with serving := false }) i = some ⟨a, true⟩ → i ≠ j ∧ RunsAt w i a := by
        intro hr
        by_cases hij : i = j
        · subst hij
          rw [put_same] at hr
          cases hr
        · rw [put_other _ _ hij] at hr
          exact ⟨hij, hr⟩
      split
      · split
        · exact h
        · rename_i fs hr
          obtain ⟨hr1, hr2⟩ := removeSocket_ok hr
          refine ⟨honly, fun hru => ?_⟩
          obtain ⟨hij, hru⟩ := hrun hru
          have hne : a ≠ s.addr := by
            intro hab
            exact hij (h.only j s hs hab.symm).symm
          simp only [hr2 a hne]
          exact h.there hru
      · exact ⟨honly, fun hru => h.there (hrun hru).2⟩
  | exit j =>
    simp only [UnixServers.step, UnixServers.exit]
    split
    · exact h
    · constructor
      · intro k t ht hab
        by_cases hk : k = j
        · subst hk
          simp only [put_same] at ht
          cases ht
        · simp only [put_other _ _ hk] at ht
          exact h.only k t ht hab
      · intro hru
        by_cases hij : i = j
        · subst hij
          simp only [RunsAt, put_same] at hru
          cases hru
        · simp only [RunsAt, put_other _ _ hij] at hru
          exact h.there hru

theorem pathInv_run {i : Nat} {a : List Char} (ha : isPath a = true) : ∀ (evs : List UnixServers.Event) (w : UnixServers.World),
    PathInv i a w → OnlyAt i a evs → PathInv i a (UnixServers.run w evs)
  | [], _, h, _ => h
  | e :: r, w, h, ho =>
    pathInv_run ha r (UnixServers.step w e)
      (pathInv_step ha h e fun j a' u m c hm hx => ho j a' u m c (by simp at hm; simp [hm]) hx)
      fun j a' u m c hm hx => ho j a' u m c (by simp [hm]) hx

/-- Partial: a server at a path gets every connection to this path while it is running, if no other process starts a server
at the same path; whatever servers at other addresses do, and also after former servers of this process were killed.
Missing: other processes with the same path, see the counterexample. -/
theorem C98_path_partial {fs : List Char → Option Node} {evs : List UnixServers.Event} {i : Nat} {a : List Char}
    (ha : isPath a = true) (ho : OnlyAt i a evs) (hi : RunsAt (UnixServers.run (World.init fs) evs) i a) :
    connect a (UnixServers.run (World.init fs) evs) = some i := by
  have h := pathInv_run ha evs (World.init fs) ⟨nofun, nofun⟩ ho
  have hi' : (UnixServers.run (World.init fs) evs).servers i = some ⟨a, true⟩ := hi
  unfold connect
  rw [if_pos ha, h.there hi]
  simp [hi']

/-- The socket of a process that was killed does not prevent the next start. -/
theorem C98_restart {w : UnixServers.World} {i : Nat} {a uuid : List Char} (ha : isPath a = true) (hne : a ≠ [])
    (hi : w.servers i = none) (hd : w.fs a ≠ some .dir) :
    (UnixServers.start i a uuid true true w).1 = .ok () ∧ RunsAt (UnixServers.start i a uuid true true w).2 i a := by
  have hadr : address a uuid = a := by simp [address, hne]
  unfold UnixServers.start
  rw [hi]
  simp only [hadr, ha, if_true]
  cases hr : removeSocket true a w.fs with
  | error e =>
    unfold removeSocket at hr
    split at hr
    · cases hr
    · contradiction
    · cases hr
  | ok fs => exact ⟨rfl, put_same ..⟩

example : ∀ w, w = UnixServers.run (World.init fun _ => none)
        [.start 1 ['s'] [] true true, .exit 1, .start 2 ['s'] [] true true] →
    connect ['s'] w = some 2 ∧ w.servers 1 = none := by
  rintro w rfl
  refine ⟨?_, ?_⟩ <;> decide

/-- A server that stopped leaves nothing at its path. -/
theorem C98_clean {w : UnixServers.World} {i : Nat} {s : UnixServers.Server} {may : Bool} (hi : w.servers i = some s)
    (ha : isPath s.addr = true) (h : (UnixServers.stop i may w).1 = .ok ()) :
    (UnixServers.stop i may w).2.fs s.addr = none := by
  unfold UnixServers.stop at h ⊢
  rw [hi] at h ⊢
  simp only [ha, if_true] at h ⊢
  cases hr : removeSocket may s.addr w.fs with
  | error e =>
    rw [hr] at h
    cases h
  | ok fs => exact (removeSocket_ok hr).1

/-- A second process with the same path takes the connections of the first, without an error; and when the first stops, it
removes the socket of the second, which runs but cannot be reached. -/
theorem C98_counterexample_stolen (fs : List Char → Option Node) {a : List Char} (ha : isPath a = true) (hne : a ≠ [])
    (hd : fs a ≠ some .dir) :
    let two := UnixServers.run (World.init fs) [.start 1 a [] true true, .start 2 a [] true true]
    RunsAt two 1 a ∧ RunsAt two 2 a ∧ connect a two = some 2 ∧
      RunsAt (UnixServers.step two (.stop 1 true)) 2 a ∧ connect a (UnixServers.step two (.stop 1 true)) = none := by
  have hadr : address a [] = a := by simp [address, hne]
  have h1 : ∃ fs', removeSocket true a fs = .ok fs' := by
    cases hr : removeSocket true a fs with
    | ok fs' => exact ⟨fs', rfl⟩
    | error e =>
      unfold removeSocket at hr
      split at hr
      · cases hr
      · contradiction
      · cases hr
  obtain ⟨fs', h1⟩ := h1
  have e1 : UnixServers.step (World.init fs) (.start 1 a [] true true) =
      ⟨put fs' a (some (.socket 1)), fun _ => none, put (fun _ => none) 1 (some ⟨a, true⟩)⟩ := by
    simp [UnixServers.step, UnixServers.start, World.init, hadr, ha, h1]
  have h2 : ∀ j, removeSocket true a (put fs' a (some (.socket j))) = .ok (put (put fs' a (some (.socket j))) a none) := by
    intro j
    unfold removeSocket
    rw [put_same]
    rfl
  have e2 : UnixServers.run (World.init fs) [.start 1 a [] true true, .start 2 a [] true true] =
      ⟨put (put (put fs' a (some (.socket 1))) a none) a (some (.socket 2)), fun _ => none,
        put (put (fun _ => none) 1 (some ⟨a, true⟩)) 2 (some ⟨a, true⟩)⟩ := by
    have : UnixServers.run (World.init fs) [.start 1 a [] true true, .start 2 a [] true true] =
        UnixServers.step (UnixServers.step (World.init fs) (.start 1 a [] true true)) (.start 2 a [] true true) := rfl
    rw [this, e1]
    have hn : put (fun _ => (none : Option UnixServers.Server)) 1 (some ⟨a, true⟩) 2 = none := by simp [put]
    simp [UnixServers.step, UnixServers.start, hadr, ha, hn, h2 1]
  intro two
  have e : two = ⟨put (put (put fs' a (some (.socket 1))) a none) a (some (.socket 2)), fun _ => none,
        put (put (fun _ => none) 1 (some ⟨a, true⟩)) 2 (some ⟨a, true⟩)⟩ := e2
  rw [e]
  refine ⟨by simp [RunsAt, put], by simp [RunsAt, put], by simp [connect, ha, put], ?_, ?_⟩
  · simp [UnixServers.step, UnixServers.stop, RunsAt, put, ha, removeSocket]
  · simp [UnixServers.step, UnixServers.stop, connect, put, ha, removeSocket]

/-- Starting a server removes any file at the configured path, not only a socket, even if making the socket fails then. -/
theorem C98_counterexample_file {w : UnixServers.World} {i : Nat} {a uuid : List Char} (can : Bool) (ha : isPath a = true)
    (hne : a ≠ []) (hi : w.servers i = none) (hf : w.fs a = some .file) :
    (UnixServers.start i a uuid true can w).2.fs a ≠ some .file := by
  have hadr : address a uuid = a := by simp [address, hne]
  have hr : removeSocket true a w.fs = .ok (put w.fs a none) := by
    unfold removeSocket
    rw [hf]
    rfl
  cases can <;> simp [UnixServers.start, hi, hadr, ha, hr, put]

end Imageio.Props
