import Verif.Lemmas.JsonDumps
import Verif.Props.Patch
import Verif.Props.AdminTool
import Verif.Props.HttpBackend
import Verif.Props.HttpExtents
import Verif.Props.HttpConnect
import Verif.Props.GoClient
import Verif.Props.Tickets

/-! C80: JSON documents. -/
namespace Imageio.Props
open Imageio.Http Imageio.Images Imageio.Spec Imageio.Spec.JsonText Imageio.JsonText

/-- C80: `json.loads` of a string returns a document exactly if the string is the text of the document: no other text is
accepted, nothing may follow, nothing is read differently. -/
theorem C80_loads (s : Str) (j : Json) : loadsText s = some j ↔ Document s j := loadsText_iff s j

/-- C80: `json.loads` of bytes returns a document exactly if the bytes are the text of the document in UTF-8. -/
theorem C80_loads_bytes (b : Bytes) (j : Json) : loads b = some j ↔ ∃ s : String, b = utf8 s ∧ Document s.toList j :=
  loads_iff b j

/-- C80: a text has one meaning. -/
theorem C80_unambiguous {s : Str} {j j' : Json} (h : Document s j) (h' : Document s j') : j = j' := by
  rw [← C80_loads] at h h'
  rw [h] at h'
  exact Option.some.inj h'

/-- C80: `json.dumps` writes a text of the document. -/
theorem C80_dumps (j : Json) : Document (dumpsText j) j := ⟨[], _, [], by simp, space_nil, dumpsText_value j, space_nil⟩

/-- C80: a document is read back as it was written, also with white space around it. -/
theorem C80_roundtrip (j : Json) {a b : Str} (ha : Space a) (hb : Space b) : loadsText (a ++ (dumpsText j ++ b)) = some j :=
  (C80_loads _ _).2 ⟨a, _, b, rfl, ha, dumpsText_value j, hb⟩

/-- C80: different documents are written differently. -/
theorem C80_injective {j j' : Json} (h : dumpsText j = dumpsText j') : j = j' :=
  C80_unambiguous (C80_dumps j) (h ▸ C80_dumps j')

theorem dumps_eq (j : Json) : dumps j = (dumpsText j).map fun c => UInt8.ofNat c.toNat := by
  rw [dumps, Nbd.encodeUtf8_eq, utf8_ascii (printable_lt (dumpsText_printable j))]

/-- C80: only printable ASCII characters are sent: a document is one line, and its length in bytes is its length in
characters. -/
theorem C80_ascii (j : Json) :
    (∀ c ∈ dumpsText j, ' ' ≤ c ∧ c ≤ '~') ∧ (∀ b ∈ dumps j, 0x20 ≤ b ∧ b ≤ 0x7e) ∧
      (dumps j).length = (dumpsText j).length := by
  have hp := dumpsText_printable j
  refine ⟨fun c hc => ?_, fun b hb => ?_, by rw [dumps_eq, List.length_map]⟩
  · have := hp c hc
    exact ⟨this.1, this.2⟩
  · rw [dumps_eq, List.mem_map] at hb
    obtain ⟨c, hc, rfl⟩ := hb
    have := hp c hc
    simp only [UInt8.le_iff_toNat_le, UInt8.toNat_ofNat']
    have h4 : c.toNat % 2 ^ 8 = c.toNat := Nat.mod_eq_of_lt (by omega)
    rw [h4]
    exact this

theorem printable_take {l : Str} (h : Printable l) (k : Nat) : Printable (l.take k) :=
  fun c hc => h c (List.mem_of_mem_take hc)

theorem dumps_take (j : Json) (k : Nat) : (dumps j).take k = utf8 (String.ofList ((dumpsText j).take k)) := by
  rw [dumps_eq, ← List.map_take, utf8_ascii (printable_lt (printable_take (dumpsText_printable j) k))]

theorem loads_take (j : Json) (k : Nat) : loads ((dumps j).take k) = loadsText ((dumpsText j).take k) := by
  rw [dumps_take, loads_printable (printable_take (dumpsText_printable j) k)]

theorem dumps_text (j : Json) : loads (dumps j) = loadsText (dumpsText j) := by
  have := loads_take j (dumps j).length
  rw [List.take_of_length_le (by omega), List.take_of_length_le (by have := (C80_ascii j).2.2; omega)] at this
  exact this

/-- C80: the beginning of an object is not a document, and the beginning of any document is not an object: a message that is cut
off is never taken for another message. -/
theorem C80_cut (j j' : Json) {k : Nat} (hk : k < (dumps j).length) (h : loads ((dumps j).take k) = some j') :
    (∀ l, j ≠ .obj l) ∧ ∀ l, j' ≠ .obj l := by
  rw [loads_take, C80_loads] at h
  obtain ⟨a, v, b, he, ha, hv, hb⟩ := h
  have hsplit : dumpsText j = a ++ (v ++ (b ++ (dumpsText j).drop k)) := by
    rw [← List.append_assoc, ← List.append_assoc, List.append_assoc a, ← he, List.take_append_drop]
  have hdrop : (dumpsText j).drop k ≠ [] := by
    have := (C80_ascii j).2.2
    intro h
    have := List.drop_eq_nil_iff.1 h
    omega
  have hval := dumpsText_value j
  have ha0 : a = [] := by
    cases a with
    | nil => rfl
    | cons c a =>
      obtain ⟨d, u, hd, hsp, _⟩ := value_head hval
      rw [hd, List.cons_append, List.cons.injEq] at hsplit
      have := (isSpace_iff c).2 (ha c (by simp))
      rw [← hsplit.1, hsp] at this
      cases this
  subst ha0
  rw [List.nil_append] at hsplit
  have key : v.head? ≠ some '{' := by
    intro hh
    have := object_cut hv hval hh hsplit.symm
    exact hdrop (List.append_eq_nil_iff.1 this).2
  refine ⟨fun l hj => key ?_, fun l hj => key ?_⟩
  · subst hj
    have h1 := value_obj hval
    obtain ⟨c, u, rfl, _⟩ := value_head hv
    rw [hsplit] at h1
    simpa using h1
  · subst hj
    exact value_obj hv

/-- C80: the JSON functions of python are a codec: what the other properties suppose of them. -/
theorem C80_codec : Spec.Admin.Codec dumps loads where
  roundtrip j := by
    rw [dumps_text]
    have := C80_roundtrip j space_nil space_nil
    simpa using this
  line j := by
    have h : dumps j ++ [10] = utf8 (String.ofList (dumpsText j ++ ['\n'])) := by
      rw [dumps_eq, utf8_ascii]
      · simp
      · intro c hc
        rcases List.mem_append.1 hc with h | h
        · exact printable_lt (dumpsText_printable j) c h
        · simp only [List.mem_singleton] at h; rw [h]; decide
    rw [h]
    refine (C80_loads_bytes _ _).2 ⟨_, rfl, ?_⟩
    rw [String.toList_ofList]
    exact ⟨[], _, ['\n'], rfl, space_nil, dumpsText_value j, by
      intro c hc; simp only [List.mem_singleton] at hc; exact .inr (.inr (.inl hc))⟩
  cut j k d hk h := (C80_cut j _ hk h).2 d rfl

theorem loadsBody_of_loads {b : Bytes} {j : Json} (h : loads b = some j) : loadsBody b = some j := by
  obtain ⟨s, rfl, hd⟩ := (C80_loads_bytes _ _).1 h
  rw [loadsBody, Nbd.decode_encode]
  exact (C80_loads _ _).2 hd

theorem loads_of_loadsBody {b : Bytes} {j : Json} (h : loadsBody b = some j) : loads b = some j := by
  unfold loadsBody at h
  split at h
  · cases h
  · rename_i s hs
    exact (C80_loads_bytes _ _).2 ⟨s, Nbd.encode_decode hs, (C80_loads _ _).1 h⟩

/-- C80: the same for the client, which decodes the response first. -/
theorem C80_codec_client : Spec.Admin.Codec dumps loadsBody where
  roundtrip j := loadsBody_of_loads (C80_codec.roundtrip j)
  line j := loadsBody_of_loads (C80_codec.line j)
  cut j k d hk h := C80_codec.cut j k d hk (loads_of_loadsBody h)

/-! ### What the other properties say with these functions -/

/-- C80: the server of the HTTP client (C49, C53, C71, C77) needs nothing of the JSON functions. -/
theorem C80_server {σ : Type} (S : HttpBackend.Server σ) (hd : S.dumps = dumps) (hl : S.loads = loads)
    (hb : 0 < S.buf.length) (ha : S.buf.length % S.B.blockSize = 0) (ht : S.ticketId ≠ []) : S.Proper where
  buf_pos := hb
  buf_aligned := ha
  ticketId := ht
  loads_zero p n f := by rw [hd, hl]; exact C80_codec.roundtrip _
  loads_flush := by rw [hd, hl]; exact C80_codec.roundtrip _
  part_zero p n f k hk := by
    rw [hd] at hk
    rw [hd, hl]
    cases h : loads ((dumps (HttpBackend.zeroMessage p n f)).take k) with
    | none => rfl
    | some j' => exact absurd rfl ((C80_cut _ _ hk h).1 _)
  part_flush k hk := by
    rw [hd] at hk
    rw [hd, hl]
    cases h : loads ((dumps HttpBackend.flushMessage).take k) with
    | none => rfl
    | some j' => exact absurd rfl ((C80_cut _ _ hk h).1 _)

/-- C80: a session of the admin client does what its calls say (C67), with these functions. -/
theorem C80_session {cfg : Admin.Cfg} (hd : cfg.dumps = dumps) (hl : cfg.loads = loads) (fmt : Json → Str)
    (l : List (Admin.Net × Admin.Call)) (h : ∀ x ∈ l, Works x.1 ∧ Spec.Admin.PlainCall x.2) (w : Admin.World)
    (hs : w.stuck = false) :
    ∃ rs, Spec.Admin.Run w.srv (l.map fun x => (envOf cfg x.1, x.2)) rs (session cfg fmt w l).2.srv ∧
      List.Forall₂ Seen (session cfg fmt w l).1 rs :=
  C67_session (by rw [hd, hl]; exact C80_codec) fmt l h w hs

theorem extents_ok (l : Extents.Dicts) : receiveExtents (sendExtents l) = some l := by
  rw [receiveExtents, sendExtents, C80_codec_client.line]

/-- C80: the client gets the zero extents and the dirty extents of the backend (C35) as text of the response. -/
theorem C80_extents (ticketId : Str) (ht : ticketId ≠ []) (exts : List Extents.ZeroExtent) (dirty : List Extents.DirtyExtent)
    (r r' : Nat × Bytes) (t : Bool) (z : Except Err (List Extents.ZeroExtent)) (d : Except Err (List Extents.DirtyExtent))
    (hz : r = Extents.respond sendExtents
      (Extents.handler ticketId (Extents.extentsQuery (lit "zero")) none t (.ok exts) d).1)
    (hd : r' = Extents.respond sendExtents
      (Extents.handler ticketId (Extents.extentsQuery (lit "dirty")) none true z (.ok dirty)).1) :
    Extents.getExtents receiveExtents Extents.ZeroExtent.fromDict r.1 r.2 = .ok exts ∧
    Extents.getExtents receiveExtents Extents.DirtyExtent.fromDict r'.1 r'.2 = .ok dirty := by
  subst hz hd
  exact ⟨C35_zero extents_ok ticketId ht t exts d, C35_dirty extents_ok ticketId ht z dirty⟩

/-- C80: a zero request (C13): whatever text of the message the client sends - the order of its members, white space, escapes -
the range in the message is zeroed. -/
theorem C80_zero {σ : Type} {B : Backend σ} (L : Lawful B) (a : Access) (ticketId : Str) (s : σ) (hi : L.Inv s) (c : Conn)
    (hc : Fresh c) (text : String) (next : Bytes) (ha : Announces c.req.header (utf8 text).length)
    (hr : c.rest = utf8 text ++ next) (lost : Bool) (msg : Json) (hm : Document text.toList msg) (size offset : Nat) (fl : Bool)
    (hz : ZeroMessage msg size offset fl) (hid : ticketId ≠ []) (hauth : a.auth = none) (hnr : a.refused = false)
    (hnc : a.canceled = false) (hsize : (offset : Int) + size ≤ a.size) (hst : ¬ L.MayFail offset size)
    (hrecv : ∀ k, Recv.fails k ∉ c.recvs) (hw : ∀ b ∈ c.writes, b = true) :
    (serve lost (patch B a loads ticketId s c)).2.sent = [200] :=
  C13_zero_succeeds L a loads ticketId s hi c hc _ next ha hr lost msg ((C80_loads_bytes _ _).2 ⟨text, rfl, hm⟩) size offset fl
    hz hid hauth hnr hnc hsize hst hrecv hw

/-- C80: a ticket is installed (C38) only from a text of a valid ticket. -/
theorem C80_ticket (ok : List Char → Bool) (inactivity : Int) (id : List Char) (s s' : Tickets.Store) (c c' : Conn)
    (h : Tickets.put ok inactivity loads id s c = (.ok (), s', c')) :
    ∃ text : String, ∃ msg t, c.read none = (.ok (utf8 text), c') ∧ Document text.toList msg ∧
      Spec.Tickets.Valid ok inactivity msg t ∧ s' t.uuid = some t ∧ ∀ x, x ≠ t.uuid → s' x = s x := by
  obtain ⟨data, msg, t, h1, h2, h3⟩ := C38_installed ok inactivity loads id s s' c c' h
  obtain ⟨text, rfl, hd⟩ := (C80_loads_bytes _ _).1 h2
  exact ⟨text, msg, t, h1, hd, h3⟩

/-! ### The output of the map command -/

theorem chars_plain {l : Str} (h : ∀ c ∈ l, 0x20 ≤ c.toNat ∧ c ≠ '"' ∧ c ≠ '\\') : Chars l l := by
  induction l with
  | nil => exact .nil
  | cons c l ih =>
    obtain ⟨h1, h2, h3⟩ := h c (by simp)
    exact .plain h1 h2 h3 (ih fun d hd => h d (by simp [hd]))

/-- An extent as python reads it. -/
def extentDict (e : GoClient.Extent) : Json :=
  .obj [("start".toList, .int e.start), ("length".toList, .int e.length), ("zero".toList, .bool e.zero)]

theorem members_one {k v : Str} {j : Json} (hk : Chars k k) (hv : Value v j) :
    Members (' ' :: '"' :: (k ++ '"' :: ':' :: ' ' :: v)) [(k, j)] := by
  have := Members.one space_one hk space_nil space_one hv space_nil
  simpa using this

theorem members_cons {w k v t : Str} {j : Json} {l : List (Str × Json)} (hw : Space w) (hk : Chars k k) (hv : Value v j)
    (ht : Members t l) : Members (w ++ '"' :: (k ++ '"' :: ':' :: ' ' :: (v ++ ',' :: t))) ((k, j) :: l) := by
  have := Members.cons hw hk space_nil space_one hv space_nil ht
  simpa using this

theorem extent_text (e : GoClient.Extent) : GoClient.formatExtent e =
    '{' :: (([] ++ '"' :: ("start".toList ++ '"' :: ':' :: ' ' :: (fmtNat e.start ++ ',' :: ([' '] ++ '"' :: ("length".toList ++
      '"' :: ':' :: ' ' :: (fmtNat e.length ++ ',' :: ' ' :: '"' :: ("zero".toList ++ '"' :: ':' :: ' ' ::
        GoClient.fmtBool e.zero))))))) ++ ['}']) := by
  have e1 : "{\"start\": ".toList = ['{', '"', 's', 't', 'a', 'r', 't', '"', ':', ' '] := rfl
  have e2 : ", \"length\": ".toList = [',', ' ', '"', 'l', 'e', 'n', 'g', 't', 'h', '"', ':', ' '] := rfl
  have e3 : ", \"zero\": ".toList = [',', ' ', '"', 'z', 'e', 'r', 'o', '"', ':', ' '] := rfl
  have e4 : "}".toList = ['}'] := rfl
  have e5 : "start".toList = ['s', 't', 'a', 'r', 't'] := rfl
  have e6 : "length".toList = ['l', 'e', 'n', 'g', 't', 'h'] := rfl
  have e7 : "zero".toList = ['z', 'e', 'r', 'o'] := rfl
  unfold GoClient.formatExtent
  rw [e1, e2, e3, e4, e5, e6, e7]
  generalize fmtNat e.start = a, fmtNat e.length = b, GoClient.fmtBool e.zero = c
  simp only [List.append_assoc, List.cons_append, List.nil_append]

theorem extent_value (e : GoClient.Extent) : Value (GoClient.formatExtent e) (extentDict e) := by
  have hb : Value (GoClient.fmtBool e.zero) (.bool e.zero) := by
    cases e.zero
    · exact .false
    · exact .true
  have c1 : Chars "start".toList "start".toList := chars_plain (by decide +kernel)
  have c2 : Chars "length".toList "length".toList := chars_plain (by decide +kernel)
  have c3 : Chars "zero".toList "zero".toList := chars_plain (by decide +kernel)
  rw [extent_text, extentDict]
  exact .members (members_cons space_nil c1 (.int (natural_fmtNat e.start)) (members_cons space_one c2
    (.int (natural_fmtNat e.length)) (members_one c3 hb)))

theorem writeLoop_items (l : List GoClient.Extent) : ∀ e : GoClient.Extent, ∀ a v : Str, Space a → Value v (extentDict e) →
    ∀ r, ∃ t, a ++ (v ++ (GoClient.writeLoop ",\n ".toList false l ++ r)) = t ++ r ∧ Items t ((e :: l).map extentDict) := by
  induction l with
  | nil =>
    intro e a v ha hv r
    exact ⟨a ++ (v ++ []), by simp [GoClient.writeLoop], .one ha hv space_nil⟩
  | cons d l ih =>
    intro e a v ha hv r
    have hw : Space ['\n', ' '] := by
      intro c hc
      simp only [List.mem_cons, List.not_mem_nil, or_false] at hc
      rcases hc with rfl | rfl <;> decide
    obtain ⟨t, ht, hi⟩ := ih d ['\n', ' '] _ hw (extent_value d) r
    refine ⟨a ++ (v ++ ([] ++ ',' :: t)), ?_, .cons ha hv space_nil hi⟩
    simp only [GoClient.writeLoop, Bool.false_eq_true, if_false, List.append_assoc, List.cons_append, List.nil_append] at ht ⊢
    rw [← ht]
    rfl

/-- C80: python's `json.loads` reads the output of the map command of the go client as the list of the extents. -/
theorem C80_map (exts : List GoClient.Extent) :
    loadsText (GoClient.writeExtents exts) = some (.arr (exts.map extentDict)) := by
  have hn : Space ['\n'] := by intro c hc; simp only [List.mem_singleton] at hc; exact .inr (.inr (.inl hc))
  rw [C80_loads]
  cases exts with
  | nil => exact ⟨[], _, ['\n'], rfl, space_nil, .noItems (w := []) space_nil, hn⟩
  | cons e l =>
    obtain ⟨t, ht, hi⟩ := writeLoop_items l e [] _ space_nil (extent_value e) "]\n".toList
    refine ⟨[], _, ['\n'], ?_, space_nil, .items hi, hn⟩
    simp only [GoClient.writeExtents, GoClient.writeLoop, if_true, List.nil_append, List.append_nil, List.append_assoc] at ht ⊢
    rw [ht]
    simp

/-! ### Examples -/

namespace JsonEx

/-- White space, escapes, the order of the members, a pair of surrogates. -/
def text : String := " { \"size\" : 4096,\t\"op\":\"z\\u0065r\\u006F\" ,\"x\":[ -1 , 2.5e3 , null, \"\\ud83d\\ude00\"],\"offset\":8192}\r\n"

def msg : Json := .obj [(lit "size", .int 4096), (lit "op", .str (lit "zero")),
    (lit "x", .arr [.int (-1), .float, .null, .str [Char.ofNat 0x1f600]]), (lit "offset", .int 8192)]

theorem loaded : loadsText text.toList = some msg := by
  have h : (loadsText text.toList).map dumpsText = some (dumpsText msg) := by decide +kernel
  cases hl : loadsText text.toList with
  | none => rw [hl] at h; cases h
  | some j =>
    rw [hl, Option.map_some, Option.some.injEq] at h
    rw [C80_injective h]

example : Document text.toList msg := (C80_loads _ _).1 loaded

/-- Texts that are refused: a comma too much, a leading zero, something after the document, a string with a line break. -/
example : ∀ t ∈ ["[1,]", "{\"a\":1,}", "01", "{} {}", "\"a\nb\"", "", "'a'", "1.", "-", "{\"a\"}", "\"\\u12g4\""],
    (loadsText t.toList).isNone = true := by
  decide +kernel

/-- A string is written in ASCII. -/
example : dumpsText (.obj [(lit "a", .str [Char.ofNat 0x1f600, 'é', '"', '\n']), (lit "b", .arr [.int (-5), .bool true])]) =
    lit "{\"a\": \"\\ud83d\\ude00\\u00e9\\\"\\n\", \"b\": [-5, true]}" := by
  decide +kernel

/-- The beginning of a number is a number: only objects are protected against being cut off. -/
example : loads (dumps (.int 12)) = some (.int 12) ∧ loads ((dumps (.int 12)).take 1) = some (.int 1) := by
  refine ⟨C80_codec.roundtrip _, ?_⟩
  rw [loads_take, C80_loads]
  have := C80_dumps (.int 1)
  exact this

/-- A server of the HTTP client with these functions. -/
example (n : Nat) : (⟨Memory.backend, zeros (n + 1), lit "ticket", 8192, dumps, loads, fun _ => .ok []⟩ :
    HttpBackend.Server Memory.State).Proper :=
  C80_server _ rfl rfl (by show 0 < (zeros (n + 1)).length; simp [zeros]) (Nat.mod_one _)
    (by show lit "ticket" ≠ []; decide)

end JsonEx

end Imageio.Props
