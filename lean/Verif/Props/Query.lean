import Verif.Spec.Query
import Verif.Props.AdminTool
/-!
Query strings (C37), and the profiler (C67).
-/
namespace Imageio.Props
open Imageio.Admin Imageio.Spec.Admin Imageio.Http Imageio.Images
open Imageio.Spec.Query (Hex Encodes Ascii LastValue)

section
variable {decode : Bytes → Str}

theorem hex_digit {c : Char} {n : Nat} (h : Hex c n) : hexDigit c = some n ∧ c ≠ '+' ∧ c ≠ '&' ∧ c ≠ '=' := by
  have fin : ∀ n, n < 10 → hexDigit (Char.ofNat (48 + n)) = some n ∧ Char.ofNat (48 + n) ≠ '+' ∧ Char.ofNat (48 + n) ≠ '&' ∧
      Char.ofNat (48 + n) ≠ '=' := by decide +kernel
  have fin2 : ∀ n, n < 6 → (hexDigit (Char.ofNat (97 + n)) = some (10 + n) ∧ Char.ofNat (97 + n) ≠ '+' ∧ Char.ofNat (97 + n) ≠ '&' ∧
      Char.ofNat (97 + n) ≠ '=') ∧ (hexDigit (Char.ofNat (65 + n)) = some (10 + n) ∧ Char.ofNat (65 + n) ≠ '+' ∧ Char.ofNat (65 + n) ≠ '&' ∧
      Char.ofNat (65 + n) ≠ '=') := by decide +kernel
  cases h with
  | digit n h => exact fin n h
  | lower n h => exact (fin2 n h).1
  | upper n h => exact (fin2 n h).2

/-- The text with `+` replaced. -/
def plusSpace (t : Str) : Str := t.map fun c => if c = '+' then ' ' else c

theorem unquote_encodes {reserved : List Char} (hr : '%' ∈ reserved ∧ '+' ∈ reserved) {bs : Bytes} {t : Str} (h : Encodes reserved bs t) :
    unquoteToBytes (plusSpace t) = bs ∧
      ('%' ∉ plusSpace t → (plusSpace t).map (fun c => UInt8.ofNat c.toNat) = bs ∧ ∀ c ∈ plusSpace t, c.toNat < 128) := by
  induction h with
  | nil => exact ⟨rfl, fun _ => ⟨rfl, fun c h => by cases h⟩⟩
  | @plain c bs t h hc _ ih =>
    have h1 : c ≠ '%' := fun e => hc (e ▸ hr.1)
    have h2 : c ≠ '+' := fun e => hc (e ▸ hr.2)
    have e : plusSpace (c :: t) = c :: plusSpace t := by simp [plusSpace, h2]
    rw [e]
    refine ⟨?_, fun hn => ?_⟩
    · rw [unquoteToBytes, ih.1]
      rintro _ _ _ rfl
      exact absurd rfl h1
    · have hn := (List.ne_and_not_mem_of_not_mem_cons hn).2
      obtain ⟨h3, h4⟩ := ih.2 hn
      refine ⟨by rw [List.map_cons, h3], fun x hx => ?_⟩
      rcases List.mem_cons.mp hx with rfl | hx
      · exact h
      · exact h4 x hx
  | @space bs t _ ih =>
    have e : plusSpace ('+' :: t) = ' ' :: plusSpace t := rfl
    rw [e]
    refine ⟨?_, fun hn => ?_⟩
    · rw [unquoteToBytes, ih.1]
      · rfl
      · rintro _ _ _ h
        exact absurd h (by decide)
    · have hn := (List.ne_and_not_mem_of_not_mem_cons hn).2
      obtain ⟨h3, h4⟩ := ih.2 hn
      refine ⟨by rw [List.map_cons, h3]; rfl, fun x hx => ?_⟩
      rcases List.mem_cons.mp hx with rfl | hx
      · decide
      · exact h4 x hx
  | @percent x y a b bs t ha hb _ ih =>
    obtain ⟨a1, a2, -⟩ := hex_digit ha
    obtain ⟨b1, b2, -⟩ := hex_digit hb
    have e : plusSpace ('%' :: a :: b :: t) = '%' :: a :: b :: plusSpace t := by simp [plusSpace, a2, b2]
    rw [e]
    refine ⟨?_, fun hn => absurd (List.mem_cons_self ..) hn⟩
    rw [unquoteToBytes, a1, b1]
    simp only [ih.1, Nat.mul_comm]

theorem decode_encodes (hd : Ascii decode) {reserved : List Char} (hr : '%' ∈ reserved ∧ '+' ∈ reserved) {bs : Bytes} {t : Str}
    (h : Encodes reserved bs t) : unquote decode (plusSpace t) = decode bs := by
  obtain ⟨h1, h2⟩ := unquote_encodes hr h
  unfold unquote
  split
  · rw [h1]
  · rename_i hn
    obtain ⟨h3, h4⟩ := h2 hn
    rw [← h3, hd _ h4]

theorem encodes_free {reserved : List Char} {x : Char} (hx : x ∈ reserved) (h1 : x = '&' ∨ x = '=') {bs : Bytes} {t : Str}
    (h : Encodes reserved bs t) : x ∉ t := by
  induction h with
  | nil => simp
  | plain h hr ht ih =>
    intro hm
    rcases List.mem_cons.mp hm with rfl | hm
    · exact hr hx
    · exact ih hm
  | space ht ih =>
    intro hm
    rcases List.mem_cons.mp hm with e | hm
    · rcases h1 with rfl | rfl <;> exact absurd e (by decide)
    · exact ih hm
  | percent ha hb ht ih =>
    obtain ⟨-, -, a2, a3⟩ := hex_digit ha
    obtain ⟨-, -, b2, b3⟩ := hex_digit hb
    intro hm
    rcases List.mem_cons.mp hm with e | hm
    · rcases h1 with rfl | rfl <;> exact absurd e (by decide)
    · rcases List.mem_cons.mp hm with e | hm
      · rcases h1 with rfl | rfl
        · exact a2 e.symm
        · exact a3 e.symm
      · rcases List.mem_cons.mp hm with e | hm
        · rcases h1 with rfl | rfl
          · exact b2 e.symm
          · exact b3 e.symm
        · exact ih hm

theorem split_free {c : Char} {t : Str} (h : c ∉ t) (q : Str) : QemuNbd.splitOn c (t ++ c :: q) = t :: QemuNbd.splitOn c q := by
  induction t with
  | nil => simp [QemuNbd.splitOn]
  | cons x r ih =>
    have h1 := List.ne_and_not_mem_of_not_mem_cons h
    rw [List.cons_append, QemuNbd.splitOn, if_neg (fun e => h1.1 e.symm), ih h1.2]

theorem split_only {c : Char} {t : Str} (h : c ∉ t) : QemuNbd.splitOn c t = [t] := by
  induction t with
  | nil => rfl
  | cons x r ih =>
    have h1 := List.ne_and_not_mem_of_not_mem_cons h
    rw [QemuNbd.splitOn, if_neg (fun e => h1.1 e.symm), ih h1.2]

theorem take_free {c : Char} {t : Str} (h : c ∉ t) (q : Str) :
    (t ++ c :: q).takeWhile (· != c) = t ∧ (t ++ c :: q).dropWhile (· != c) = c :: q ∧ t.takeWhile (· != c) = t ∧ t.dropWhile (· != c) = [] := by
  induction t with
  | nil => simp
  | cons x r ih =>
    have h1 := List.ne_and_not_mem_of_not_mem_cons h
    obtain ⟨a, b, d, e⟩ := ih h1.2
    have hx : (x != c) = true := by simpa using fun e => h1.1 e.symm
    simp only [List.cons_append, List.takeWhile_cons, List.dropWhile_cons, hx, if_true, a, b, d, e, and_self]

theorem nameValue_field (hd : Ascii decode) {f : Option (Bytes × Bytes)} {t : Str} (h : Spec.Query.Field f t) :
    '&' ∉ t ∧ ([t].filter (· ≠ [])).map (nameValue decode) = f.toList.map fun f => (decode f.1, decode f.2) := by
  have nil : decode [] = [] := hd [] (fun c h => by cases h)
  cases h with
  | nothing => exact ⟨by simp, by simp⟩
  | @name k t hk ht =>
    refine ⟨encodes_free (by simp) (.inl rfl) hk, ?_⟩
    obtain ⟨-, -, e1, e2⟩ := take_free (encodes_free (by simp) (.inr rfl) hk : '=' ∉ t) []
    have := decode_encodes hd (by simp) hk
    unfold plusSpace at this
    simp only [ht, ne_eq, not_false_eq_true, decide_true, List.filter_cons_of_pos, List.filter_nil, List.map_cons, List.map_nil, nameValue, e1, e2, this,
      List.drop_nil, Option.toList_some, nil]
    rfl
  | @value k v t u hk hv =>
    refine ⟨?_, ?_⟩
    · intro hm
      rcases List.mem_append.mp hm with hm | hm
      · exact encodes_free (by simp) (.inl rfl) hk hm
      · rcases List.mem_cons.mp hm with e | hm
        · exact absurd e (by decide)
        · exact encodes_free (by simp) (.inl rfl) hv hm
    · obtain ⟨e1, e2, -, -⟩ := take_free (encodes_free (by simp) (.inr rfl) hk : '=' ∉ t) u
      have h1 := decode_encodes hd (by simp) hk
      have h2 := decode_encodes hd (by simp) hv
      unfold plusSpace at h1 h2
      have hne : t ++ '=' :: u ≠ [] := by simp
      simp only [hne, ne_eq, not_false_eq_true, decide_true, List.filter_cons_of_pos, List.filter_nil, List.map_cons, List.map_nil, nameValue, e1, e2, h1, h2,
        List.drop_succ_cons, List.drop_zero, Option.toList_some]

/-- C37: the server reads a query string as the fields that were written, whatever characters were written as `%` with two digits, in whatever case, and
with `+` for spaces; empty fields are ignored; a name without value has an empty one. -/
theorem C37_query (hd : Ascii decode) {fs : List (Bytes × Bytes)} {q : Str} (h : Spec.Query.Query fs q) :
    parseQsl decode q = fs.map fun f => (decode f.1, decode f.2) := by
  induction h with
  | last h =>
    obtain ⟨h1, h2⟩ := nameValue_field hd h
    rw [parseQsl, split_only h1, h2]
  | @more f t fs q h _ ih =>
    obtain ⟨h1, h2⟩ := nameValue_field hd h
    rw [parseQsl, split_free h1, List.map_append, ← h2, ← ih, parseQsl, ← List.map_append, ← List.filter_append]
    rfl

/-- C37: of several fields with the same name the last one counts. -/
theorem C37_query_last (fs : List (Str × Str)) (name v : Str) : queryGet fs name = some v ↔ LastValue fs name v := by
  unfold queryGet LastValue
  constructor
  · intro h
    obtain ⟨f, hf, rfl⟩ := Option.map_eq_some_iff.mp h
    obtain ⟨h1, as, bs, h2, h3⟩ := List.find?_eq_some_iff_append.mp hf
    refine ⟨bs.reverse, as.reverse, ?_, fun g hg => ?_⟩
    · have := congrArg List.reverse h2
      simp only [List.reverse_reverse, List.reverse_append, List.reverse_cons, List.append_assoc, List.singleton_append] at this
      rw [this]
      have : f.1 = name := by simpa using h1
      rw [← this]
    · simpa using h3 g (List.mem_reverse.mp hg)
  · rintro ⟨pre, post, rfl, hp⟩
    refine Option.map_eq_some_iff.mpr ⟨(name, v), List.find?_eq_some_iff_append.mpr ⟨by simp, post.reverse, pre.reverse, by simp, fun g hg => ?_⟩, rfl⟩
    simpa using hp g (List.mem_reverse.mp hg)

end

/-! ## The profiler -/

theorem profile_path (decode : Bytes → Str) : route (unquote decode (lit "/profile/")) = some (.profile, []) := by
  rw [unquote, if_neg (by decide +kernel)]
  decide +kernel

/-- C67: `GET /profile/` tells whether the profiler is running, and changes nothing. -/
theorem C67_profile_status {cfg : Admin.Cfg} (hj : Codec cfg.dumps cfg.loads) (net : Admin.Net) (hw : Works net) (hy : cfg.yappi = true) (w : World)
    (hs : w.stuck = false) :
    ∃ body b, request cfg net (lit "GET") (lit "/profile/") none w = (.ok (200, body), w) ∧ cfg.loads body = some (.obj [(lit "running", .bool b)]) ∧
      (b = true ↔ ∃ clock, w.srv.profiler = some clock) := by
  have hm : lit "GET" ∈ allowedMethods := by decide +kernel
  have hsp : splitQuery (lit "/profile/") = (lit "/profile/", []) := by decide +kernel
  have hh : handler cfg net (lit "GET") (lit "/profile/") w.srv (net.conn none) =
      ((sendJson cfg (.obj [(lit "running", .bool w.srv.profiler.isSome)]) (net.conn none)).1, w.srv,
        (sendJson cfg (.obj [(lit "running", .bool w.srv.profiler.isSome)]) (net.conn none)).2) := by
    unfold handler
    rw [hsp]
    simp only [hm, not_true, if_false, profile_path, if_true, getProfile, hy, Bool.not_true, Bool.false_eq_true]
  obtain ⟨h1, h2, h3⟩ := serve_json (s := w.srv) cfg (.obj [(lit "running", .bool w.srv.profiler.isSome)]) net.lost (conn_quiet net none)
  have h3 := h3 hw.writes
  rcases request_cases cfg net (lit "GET") (lit "/profile/") none w hs (by decide +kernel) _ hh with ⟨_, h⟩ | ⟨_, h⟩ | ⟨st, l, hst, _, hr⟩
  · exact absurd hw h
  · rw [h hw] at h3; cases h3
  · rw [h3] at hst
    cases hst
    rcases h2 with h2 | ⟨_, h2⟩
    · rw [h3] at h2; cases h2
    · refine ⟨_, w.srv.profiler.isSome, by rw [hr, h1], by rw [h2, hj.line], Option.isSome_iff_exists⟩

/-- C67: `POST /profile/` with a query that does not say `run=y` or `run=n` (the last `run` counts) is refused, and changes nothing. -/
theorem C67_profile_bad (cfg : Admin.Cfg) (net : Admin.Net) (hd : Ascii cfg.decode) (hy : cfg.yappi = true) {fs : List (Bytes × Bytes)} {q : Str}
    (hq : Spec.Query.Query fs q)
    (hb : ∀ v, LastValue (fs.map fun f => (cfg.decode f.1, cfg.decode f.2)) (lit "run") v → v ≠ lit "y" ∧ v ≠ lit "n") (s : Server) (c : Conn) :
    handler cfg net (lit "POST") (lit "/profile/?" ++ q) s c = (.error (.http 400), s, c) := by
  have hm : lit "POST" ∈ allowedMethods := by decide +kernel
  have hg : lit "POST" ≠ lit "GET" := by decide +kernel
  have hsp : splitQuery (lit "/profile/?" ++ q) = (lit "/profile/", q) := by
    have e : lit "/profile/?" ++ q = lit "/profile/" ++ '?' :: q := rfl
    obtain ⟨h1, h2, -⟩ := take_free (c := '?') (t := lit "/profile/") (by decide +kernel) q
    rw [e, splitQuery, h1, h2]
    rfl
  have he : enumRequired (fs.map fun f => (cfg.decode f.1, cfg.decode f.2)) (lit "run") [lit "y", lit "n"] = .error (.http 400) := by
    unfold enumRequired
    split
    · rfl
    · rename_i v hv
      obtain ⟨h1, h2⟩ := hb v ((C37_query_last _ _ _).mp hv)
      rw [if_neg (by simp [h1, h2])]
  unfold handler
  rw [hsp]
  simp only [hm, not_true, if_false, profile_path, hg, if_true, postProfile, hy, Bool.not_true, Bool.false_eq_true, C37_query hd hq, he]

/-! ## Examples -/

theorem ascii_latin : Ascii (fun bs => bs.map fun b => Char.ofNat b.toNat) := by
  intro s h
  show List.map _ (List.map _ s) = s
  rw [List.map_map]
  conv => rhs; rw [← List.map_id s]
  refine List.map_congr_left fun c hc => ?_
  have := h c hc
  show Char.ofNat (UInt8.ofNat c.toNat).toNat = c
  rw [UInt8.toNat_ofNat_of_lt' (by show _ < 256; omega), Char.ofNat_toNat]

/-- `run=y&&%72un=%4E+` has the fields `run=y` and `run=N `. -/
example : Spec.Query.Query [([114, 117, 110], [121]), ([114, 117, 110], [78, 32])] (lit "run=y&&%72un=%4E+") :=
  .more (f := some (_, _)) (.value (t := lit "run") (u := lit "y")
    (.plain (c := 'r') (by decide) (by decide) (.plain (c := 'u') (by decide) (by decide) (.plain (c := 'n') (by decide) (by decide) .nil)))
    (.plain (c := 'y') (by decide) (by decide) .nil))
  (.more (f := none) .nothing (.last (f := some (_, _)) (.value (t := lit "%72un") (u := lit "%4E+")
    (.percent (.digit 7 (by decide)) (.digit 2 (by decide)) (.plain (c := 'u') (by decide) (by decide) (.plain (c := 'n') (by decide) (by decide) .nil)))
    (.percent (.digit 4 (by decide)) (.upper 4 (by decide)) (.space .nil)))))

example : parseQsl (fun bs => bs.map fun b => Char.ofNat b.toNat) (lit "run=y&&%72un=%4E+") = [(lit "run", lit "y"), (lit "run", lit "N ")] := by
  decide +kernel

end Imageio.Props
