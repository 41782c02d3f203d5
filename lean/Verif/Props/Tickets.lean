import Verif.Spec.Tickets

/-!
C38: validation of tickets.  C36: capabilities reported by OPTIONS.
-/
namespace Imageio.Props
open Imageio.Tickets
open Imageio.Images hiding put
open Imageio.Spec.Tickets Imageio.Http Imageio.Url

theorem find_iff (d : List (List Char × Json)) (key : String) (v : Json) :
    find d key = some v ↔ Field d key v := by
  unfold find Field
  induction d with
  | nil => simp
  | cons a r ih =>
    simp only [List.reverse_cons, List.find?_append, Option.map_eq_some_iff] at ih ⊢
    constructor
    · rintro ⟨f, hf, rfl⟩
      cases hr : r.reverse.find? (fun f => decide (f.1 = key.toList)) with
      | some g =>
        rw [hr] at hf
        simp at hf
        subst hf
        obtain ⟨pre, post, rfl, hp⟩ := ih.1 ⟨g, hr, rfl⟩
        exact ⟨a :: pre, post, rfl, hp⟩
      | none =>
        rw [hr] at hf
        simp at hf
        obtain ⟨hk, rfl⟩ := hf
        refine ⟨[], r, by rw [← hk]; rfl, ?_⟩
        intro g hg
        have := List.find?_eq_none.1 hr g (by simpa using hg)
        simpa using this
    · rintro ⟨pre, post, he, hp⟩
      cases pre with
      | nil =>
        simp at he
        obtain ⟨rfl, rfl⟩ := he
        have hr : r.reverse.find? (fun f => decide (f.1 = key.toList)) = none := by
          apply List.find?_eq_none.2
          intro g hg
          simpa using hp g (by simpa using hg)
        exact ⟨(key.toList, v), by simp [hr], rfl⟩
      | cons b bs =>
        simp at he
        obtain ⟨rfl, rfl⟩ := he
        obtain ⟨f, hf, rfl⟩ := ih.2 ⟨bs, post, rfl, hp⟩
        exact ⟨f, by rw [hf]; rfl, rfl⟩

theorem find_none_iff (d : List (List Char × Json)) (key : String) :
    find d key = none ↔ Absent d key := by
  simp [find, Absent]

theorem required_iff {α : Type} (d : List (List Char × Json)) (key : String)
    (as : String → Json → Except Invalid α) (v : α) :
    required d key as = .ok v ↔ ∃ j, Field d key j ∧ as key j = .ok v := by
  simp only [required, ← find_iff]
  cases find d key <;> simp

theorem optional_iff {α : Type} (d : List (List Char × Json)) (key : String)
    (as : String → Json → Except Invalid α) (default v : α) :
    optional d key as default = .ok v ↔
      (Absent d key ∧ v = default) ∨ ∃ j, Field d key j ∧ as key j = .ok v := by
  simp only [Tickets.optional, ← find_iff, ← find_none_iff]
  cases find d key <;> simp [eq_comm]

theorem asInt_iff (k : String) (j : Json) (v : Int) : asInt k j = .ok v ↔ IntLike j v := by
  constructor
  · intro h
    cases j <;> simp [asInt] at h
    · subst h; exact .bool
    · subst h; exact .int
  · rintro (_ | _) <;> rfl

theorem asStr_iff (k : String) (j : Json) (v : List Char) : asStr k j = .ok v ↔ j = .str v := by
  cases j <;> simp [asStr]

theorem asBool_iff (k : String) (j : Json) (v : Bool) : asBool k j = .ok v ↔ j = .bool v := by
  cases j <;> simp [asBool]

theorem asList_iff (k : String) (j : Json) (v : List Json) : asList k j = .ok v ↔ j = .arr v := by
  cases j <;> simp [asList]

theorem supports_iff (s : List Char) : supports s = true ↔ String.ofList s ∈ schemes := by
  have key : ∀ x : String, s = x.toList ↔ String.ofList s = x := by
    intro x
    constructor
    · rintro rfl; simp
    · rintro rfl; simp
  simp [supports, schemes, key, or_assoc]

theorem ticketUrl_iff (ok : List Char → Bool) (u : List Char) (p : Parsed) :
    ticketUrl ok u = .ok p ↔ urlparse ok u = some p ∧ String.ofList p.scheme ∈ schemes := by
  rw [← supports_iff]
  simp only [ticketUrl]
  cases urlparse ok u with
  | none => simp
  | some q =>
    simp only [Option.some.injEq]
    by_cases h : supports q.scheme = true
    · simp only [h, if_true, Except.ok.injEq]
      constructor
      · rintro rfl; exact ⟨rfl, h⟩
      · exact fun h => h.1
    · simp only [h, if_false, reduceCtorEq, false_iff]
      rintro ⟨rfl, h'⟩
      exact h h'

theorem bind_ok {α β : Type} (x : Except Invalid α) (f : α → Except Invalid β) (b : β) :
    (x >>= f) = .ok b ↔ ∃ a, x = .ok a ∧ f a = .ok b := by
  cases x with
  | error e => simp [bind, Except.bind]
  | ok a => simp [bind, Except.bind]

/-- Exactly the valid tickets are accepted, with exactly these fields. -/
theorem C38_parse_iff (ok : List Char → Bool) (inactivity : Int) (msg : Json) (t : Fields) :
    parse ok inactivity msg = .ok t ↔ Valid ok inactivity msg t := by
  cases msg with
  | obj d =>
    simp only [parse, bind_ok, required_iff, optional_iff, asInt_iff, asStr_iff, asBool_iff,
      asList_iff, ticketUrl_iff, Valid]
    have hmap : ∀ k j (v : Option (List Char)), (asStr k j).map some = .ok v ↔
        ∃ s, j = .str s ∧ v = some s := by
      intro k j v
      cases j <;> simp [asStr, Except.map, eq_comm]
    simp only [hmap]
    constructor
    · rintro ⟨uuid, h1, size, h2, ops, h3, timeout, h4, inact, h5, us, h6, url, h7, tid, h8,
        fn, h9, sp, h10, di, h11, he⟩
      cases he
      obtain ⟨j1, h1, rfl⟩ := h1
      obtain ⟨j3, h3, rfl⟩ := h3
      obtain ⟨j6, h6, rfl⟩ := h6
      exact ⟨d, rfl, h1, h2, h3, h4, h5, ⟨us, h6, h7⟩, h8, h9, h10, h11⟩
    · rintro ⟨d', hd, h1, h2, h3, h4, h5, ⟨us, h6, h7⟩, h8, h9, h10, h11⟩
      cases hd
      exact ⟨t.uuid, ⟨_, h1, rfl⟩, t.size, h2, t.ops, ⟨_, h3, rfl⟩, t.timeout, h4, _, h5, us,
        ⟨_, h6, rfl⟩, t.url, h7, t.transferId, h8, t.filename, h9, t.sparse, h10, t.dirty, h11, rfl⟩
  | _ =>
    simp only [parse, Valid, reduceCtorEq, false_iff]
    rintro ⟨d, h, -⟩
    cases h

/-- The request installs a ticket only if its body is a valid ticket; then exactly this
ticket is stored, and no other ticket is changed. -/
theorem C38_installed (ok : List Char → Bool) (inactivity : Int) (loads : Bytes → Option Json)
    (id : List Char) (s s' : Store) (c c' : Conn)
    (h : put ok inactivity loads id s c = (.ok (), s', c')) :
    ∃ data msg t, c.read none = (.ok data, c') ∧ loads data = some msg ∧
      Valid ok inactivity msg t ∧ s' t.uuid = some t ∧ ∀ x, x ≠ t.uuid → s' x = s x := by
  unfold put at h
  split at h
  · cases h
  · split at h
    · cases h
    · rename_i data c1 hr
      split at h
      · cases h
      · rename_i msg hm
        simp only [add] at h
        cases hp : parse ok inactivity msg with
        | error e => rw [hp] at h; cases h
        | ok t =>
          rw [hp] at h
          cases h
          exact ⟨data, msg, t, hr, hm, (C38_parse_iff ok inactivity msg t).1 hp, by simp,
            fun x hx => by simp [hx]⟩

/-- Otherwise the request fails and nothing is changed. -/
theorem C38_refused (ok : List Char → Bool) (inactivity : Int) (loads : Bytes → Option Json)
    (id : List Char) (s : Store) (c : Conn)
    (h : (put ok inactivity loads id s c).1 ≠ .ok ()) :
    (put ok inactivity loads id s c).2.1 = s := by
  unfold put at h ⊢
  split
  · rfl
  · split
    · rfl
    · split
      · rfl
      · rename_i hid _ data c1 hr _ msg hm
        simp only [hid, if_false, hr, hm] at h
        simp only [add] at h ⊢
        cases hp : parse ok inactivity msg with
        | error e => rfl
        | ok t => rw [hp] at h; exact absurd rfl h

/-- A body that was read and is not a valid ticket is answered with 400. -/
theorem C38_bad_request (ok : List Char → Bool) (inactivity : Int) (loads : Bytes → Option Json)
    (id : List Char) (s : Store) (c c' : Conn) (data : Bytes)
    (hr : c.read none = (.ok data, c'))
    (hv : ∀ msg t, loads data = some msg → ¬ Valid ok inactivity msg t) :
    (put ok inactivity loads id s c).1 = .error (.http 400) := by
  unfold put
  split
  · rfl
  · simp only [hr]
    split
    · rfl
    · rename_i msg hm
      simp only [add]
      cases hp : parse ok inactivity msg with
      | error e => rfl
      | ok t => exact absurd ((C38_parse_iff ok inactivity msg t).1 hp) (hv msg t hm)

/-- A valid ticket sent to a non-empty id is installed. -/
theorem C38_accepted (ok : List Char → Bool) (inactivity : Int) (loads : Bytes → Option Json)
    (id : List Char) (s : Store) (c c' : Conn) (data : Bytes) (msg : Json) (t : Fields)
    (hid : id ≠ []) (hr : c.read none = (.ok data, c')) (hm : loads data = some msg)
    (hv : Valid ok inactivity msg t) :
    ∃ s', put ok inactivity loads id s c = (.ok (), s', c') ∧ s' t.uuid = some t := by
  have hp := (C38_parse_iff ok inactivity msg t).2 hv
  refine ⟨fun x => if x = t.uuid then some t else s x, ?_, by simp⟩
  simp only [put, hid, if_false, hr, hm, add, hp]

/-- The types of the documentation: no boolean for an integer. -/
def NoBool (d : List (List Char × Json)) : Prop :=
  ∀ key ∈ ["size", "timeout", "inactivity_timeout"], ∀ b, ¬ Field d key (.bool b)

/-- With integers that are integers, accepted tickets have the documented types.  Missing:
booleans are accepted as integers, see `C38_counterexample_bool`. -/
theorem C38_documented_partial (ok : List Char → Bool) (inactivity : Int)
    (d : List (List Char × Json)) (t : Fields) (h : parse ok inactivity (.obj d) = .ok t)
    (hb : NoBool d) :
    Field d "uuid" (.str t.uuid) ∧ Field d "size" (.int t.size) ∧ Field d "ops" (.arr t.ops) ∧
      Field d "timeout" (.int t.timeout) ∧
      (Absent d "inactivity_timeout" ∨ Field d "inactivity_timeout" (.int t.inactivityTimeout)) ∧
      ∃ u, Field d "url" (.str u) := by
  obtain ⟨d', hd, h1, ⟨v2, h2, i2⟩, h3, ⟨v4, h4, i4⟩, h5, ⟨u, h6, -⟩, -⟩ :=
    (C38_parse_iff ok inactivity _ t).1 h
  cases hd
  have key : ∀ k ∈ ["size", "timeout", "inactivity_timeout"], ∀ v n, Field d k v →
      IntLike v n → Field d k (.int n) := by
    intro k hk v n hf hi
    cases hi with
    | int => exact hf
    | bool => exact absurd hf (hb k hk _)
  refine ⟨h1, key _ (by simp) _ _ h2 i2, h3, key _ (by simp) _ _ h4 i4, ?_, u, h6⟩
  rcases h5 with ⟨ha, -⟩ | ⟨v, hf, hi⟩
  · exact .inl ha
  · exact .inr (key _ (by simp) _ _ hf hi)

/-- A ticket for the examples. -/
def ticket0 (size : Json) : Json :=
  .obj [(lit "uuid", .str (lit "a")), (lit "size", size), (lit "ops", .arr [.str (lit "read")]),
    (lit "timeout", .int 300), (lit "url", .str (lit "file:///disk"))]

/-- `size: true` is accepted as a size of one byte. -/
theorem C38_counterexample_bool :
    ∃ t, parse (fun _ => true) 60 (ticket0 (.bool true)) = .ok t ∧ t.size = 1 :=
  ⟨_, rfl, rfl⟩

/-- Negative sizes are accepted. -/
theorem C38_counterexample_negative :
    ∃ t, parse (fun _ => true) 60 (ticket0 (.int (-1))) = .ok t ∧ t.size = -1 :=
  ⟨_, rfl, rfl⟩

/-- A valid and an invalid ticket. -/
example : ∃ t, Valid (fun _ => true) 60 (ticket0 (.int 1024)) t ∧ t.uuid = lit "a" := by
  have h : ∃ t, parse (fun _ => true) 60 (ticket0 (.int 1024)) = .ok t ∧ t.uuid = lit "a" :=
    ⟨_, rfl, rfl⟩
  obtain ⟨t, h, hu⟩ := h
  exact ⟨t, (C38_parse_iff _ _ _ _).1 h, hu⟩
example : ∀ t, ¬ Valid (fun _ => true) 60 (ticket0 .null) t := by
  intro t h
  have := (C38_parse_iff _ _ _ _).2 h
  cases this

/-- The uuid of the ticket is used, not the id of the request: a ticket can be installed
under another id, or replace another ticket. -/
theorem C38_other_id (ok : List Char → Bool) (inactivity : Int) (loads : Bytes → Option Json)
    (id id' : List Char) (s : Store) (c : Conn) (h : id ≠ []) (h' : id' ≠ []) :
    put ok inactivity loads id s c = put ok inactivity loads id' s c := by
  simp only [put, h, h', if_false]

/-! ### C36 -/

/-- Whether the ticket authorizes the operation at this time. -/
def Authorized (cfg : Auth.Config) (s : Auth.State) (id op : String) : Prop :=
  ∃ r, Auth.authorize cfg s id op = .ok r

theorem options_ok {cfg : Auth.Config} {s : Auth.State} {sock : Option String} {id : String}
    {opened : Option (Nat × Nat)} {c : Capabilities} (hid : id ≠ "*")
    (h : options cfg s sock id opened = .ok c) :
    ∃ t l, t.may "read" = true ∧ opened = some l ∧ c = ticketCapabilities t sock l ∧
      (∀ op, Authorized cfg s id op ↔ t.may op = true) := by
  unfold options at h
  split at h
  · cases h
  · cases ha : Auth.authorize cfg s id "read" with
    | error e => rw [ha] at h; cases h
    | ok r =>
      simp only [ha] at h
      unfold Auth.authorize at ha
      cases hs : s.store id with
      | none => rw [hs] at ha; cases ha
      | some r' =>
        simp only [hs] at ha
        cases ht : s.tickets r' with
        | none => rw [ht] at ha; cases ha
        | some t =>
          simp only [ht] at ha
          split at ha
          · cases ha
          · split at ha
            · cases ha
            · split at ha
              · cases ha
              · cases ha
                rename_i h1 h2 h3
                rw [ht] at h
                cases opened with
                | none => cases h
                | some l =>
                  cases h
                  refine ⟨t, l, by simpa using h3, rfl, rfl, ?_⟩
                  intro op
                  unfold Authorized Auth.authorize
                  simp only [hs, ht, h1, h2, if_false]
                  cases t.may op <;> simp

/-- OPTIONS for a ticket lists exactly OPTIONS and the image methods that the ticket
authorizes at this time. -/
theorem C36_allow (cfg : Auth.Config) (s : Auth.State) (sock : Option String) (id : String)
    (opened : Option (Nat × Nat)) (c : Capabilities) (hid : id ≠ "*")
    (h : options cfg s sock id opened = .ok c) (m : String) :
    m ∈ c.allow ↔ m = "OPTIONS" ∨ ∃ op, needs m = some op ∧ Authorized cfg s id op := by
  obtain ⟨t, l, hr, -, rfl, ha⟩ := options_ok hid h
  simp only [ha]
  have hn : (∃ op, needs m = some op ∧ t.may op = true) ↔
      m = "GET" ∨ ((m = "PUT" ∨ m = "PATCH") ∧ t.may "write" = true) := by
    unfold needs
    split <;> simp_all
  rw [hn]
  cases hw : t.may "write" <;> simp [ticketCapabilities, hr, hw]

/-- Flush and zero are reported exactly with write access; checksum and extents always. -/
theorem C36_features (cfg : Auth.Config) (s : Auth.State) (sock : Option String) (id : String)
    (opened : Option (Nat × Nat)) (c : Capabilities) (hid : id ≠ "*")
    (h : options cfg s sock id opened = .ok c) :
    ∃ fs, c.features = some fs ∧ ∀ f, f ∈ fs ↔ f = "checksum" ∨ f = "extents" ∨
      ((f = "flush" ∨ f = "zero") ∧ Authorized cfg s id "write") := by
  obtain ⟨t, l, hr, -, rfl, ha⟩ := options_ok hid h
  simp only [ha]
  cases hw : t.may "write"
  · exact ⟨_, by simp only [ticketCapabilities, hr, hw, if_true]; rfl, by simp [baseFeatures]⟩
  · exact ⟨allFeatures, by simp only [ticketCapabilities, hr, hw, if_true],
      by simp [baseFeatures, allFeatures]⟩

/-- The socket and the limits of the backend are reported as they are. -/
theorem C36_limits (cfg : Auth.Config) (s : Auth.State) (sock : Option String) (id : String)
    (opened : Option (Nat × Nat)) (c : Capabilities) (hid : id ≠ "*")
    (h : options cfg s sock id opened = .ok c) :
    c.limits = opened ∧ opened ≠ none ∧ c.unixSocket = sock := by
  obtain ⟨t, l, hr, rfl, rfl, ha⟩ := options_ok hid h
  exact ⟨rfl, by simp, rfl⟩

/-- A ticket with an open backend is refused exactly if it does not authorize reading, and
then it authorizes nothing. -/
theorem C36_refused (cfg : Auth.Config) (s : Auth.State) (sock : Option String) (id : String)
    (l : Nat × Nat) (hid : id ≠ "*") (hid' : id ≠ "") :
    (options cfg s sock id (some l) = .error 403 ↔ ¬ Authorized cfg s id "read") ∧
      (¬ Authorized cfg s id "read" → ¬ Authorized cfg s id "write") := by
  have hrw : Authorized cfg s id "write" → Authorized cfg s id "read" := by
    rintro ⟨r, h⟩
    refine ⟨r, ?_⟩
    unfold Auth.authorize at h ⊢
    split at h
    · cases h
    · split at h
      · cases h
      · split at h
        · cases h
        · split at h
          · cases h
          · split at h
            · cases h
            · rename_i t ht h1 h2 h3
              have : t.may "read" = true := by
                simp only [Auth.Ticket.may] at h3 ⊢
                simp at h3
                simp [h3]
              simp only [h1, h2, if_false, this]
              exact h
  refine ⟨⟨?_, ?_⟩, fun h hw => h (hrw hw)⟩
  · rintro h ⟨r, hr⟩
    simp only [options, hid, hid', if_false, hr] at h
    have hr' := hr
    unfold Auth.authorize at hr'
    split at hr'
    · cases hr'
    · split at hr'
      · cases hr'
      · rename_i r' hs _ t ht
        have : r' = r := by
          split at hr'
          · cases hr'
          · split at hr'
            · cases hr'
            · split at hr'
              · cases hr'
              · cases hr'; rfl
        subst this
        rw [ht] at h
        cases h
  · intro h
    simp only [options, hid, hid', if_false]
    cases ha : Auth.authorize cfg s id "read" with
    | error e => rfl
    | ok r => exact absurd ⟨r, ha⟩ h

/-- `OPTIONS /images/*` lists all methods and features, whatever tickets exist. -/
theorem C36_star (cfg : Auth.Config) (s : Auth.State) (sock : Option String)
    (opened : Option (Nat × Nat)) :
    ∃ c, options cfg s sock "*" opened = .ok c ∧ c.limits = none ∧ c.unixSocket = sock ∧
      (∀ m, m ∈ c.allow ↔ m = "OPTIONS" ∨ ∃ op, needs m = some op) ∧
      (∀ f, f ∈ c.features.getD [] ↔ f ∈ ["checksum", "extents", "flush", "zero"]) := by
  refine ⟨_, rfl, rfl, rfl, ?_, by simp [allFeatures, baseFeatures]⟩
  intro m
  have hn : (∃ op, needs m = some op) ↔ m = "GET" ∨ m = "PUT" ∨ m = "PATCH" := by
    unfold needs
    split <;> simp_all
  rw [hn]
  simp

/-- The three values of the `allow` header for tickets and `*`. -/
theorem C36_header (cfg : Auth.Config) (s : Auth.State) (sock : Option String) (id : String)
    (opened : Option (Nat × Nat)) (c : Capabilities)
    (h : options cfg s sock id opened = .ok c) :
    (allowHeader c = "OPTIONS,GET" ∧ ¬ Authorized cfg s id "write") ∨
      (allowHeader c = "OPTIONS,GET,PUT,PATCH" ∧ (id = "*" ∨ Authorized cfg s id "write")) := by
  by_cases hid : id = "*"
  · subst hid
    obtain ⟨c', h', -⟩ := C36_star cfg s sock opened
    right
    unfold options at h
    simp at h
    subst h
    exact ⟨by simp only [allowHeader]; decide +kernel, .inl rfl⟩
  · obtain ⟨t, l, hr, -, rfl, ha⟩ := options_ok hid h
    simp only [ha]
    cases hw : t.may "write"
    · left
      refine ⟨?_, by simp⟩
      simp only [allowHeader, ticketCapabilities, hr, hw, if_true]
      decide +kernel
    · right
      refine ⟨?_, .inr rfl⟩
      simp only [allowHeader, ticketCapabilities, hr, hw, if_true]
      decide +kernel

/-- A state with a read only ticket. -/
def authState0 (ops : List String) : Auth.State :=
  { Auth.init with
    store := fun id => if id = "a" then some 0 else none
    tickets := fun r => if r = 0 then
      some (Auth.Ticket.new ⟨"a", 1024, ops, 300⟩ 0) else none }

example : options ⟨1, 60⟩ (authState0 ["read"]) none "a" (some (8, 8)) =
    .ok ⟨["OPTIONS", "GET"], some ["checksum", "extents"], none, some (8, 8)⟩ := rfl
example : options ⟨1, 60⟩ (authState0 ["write"]) none "a" (some (8, 1)) =
    .ok ⟨["OPTIONS", "GET", "PUT", "PATCH"], some ["checksum", "extents", "flush", "zero"], none,
      some (8, 1)⟩ := rfl
example : options ⟨1, 60⟩ (authState0 []) none "a" (some (8, 8)) = .error 403 := rfl

end Imageio.Props
