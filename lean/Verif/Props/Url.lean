import Verif.Lemmas.Url

/-!
C41: NBD URLs.  C42: quoting of hosts.
-/
namespace Imageio.Props
open Imageio.Url Imageio.Spec Imageio.Http

/-! ### C42 -/

/-- Unquoting restores what was quoted, for every string. -/
theorem C42_round_trip (host : List Char) : unquoteAddress (quoteAddress host) = host := by
  unfold quoteAddress
  split
  · rename_i h
    rw [unquoteAddress, if_pos ⟨rfl, by rw [← List.cons_append]; exact List.getLast?_concat,
      by simp [h]⟩]
    simp
  · rename_i h
    rw [unquoteAddress, if_neg (fun h' => h h'.2.2)]

/-- Exactly the hosts with a colon, i.e. IPv6 addresses, are put in brackets.  Host names
and IPv4 addresses never contain a colon. -/
theorem C42_brackets (host : List Char) :
    (':' ∈ host → quoteAddress host = ['['] ++ host ++ [']']) ∧
      (':' ∉ host → quoteAddress host = host) :=
  ⟨fun h => by simp [quoteAddress, h], fun h => by simp [quoteAddress, h]⟩

/-- Different hosts are quoted differently. -/
theorem C42_injective (a b : List Char) (h : quoteAddress a = quoteAddress b) : a = b := by
  rw [← C42_round_trip a, h, C42_round_trip]

/-- Unquoting a host without brackets around changes nothing, so unquoting is safe for
all hosts given by the user. -/
theorem C42_unquoted (host : List Char)
    (h : ∀ m, ':' ∈ m → host ≠ ['['] ++ m ++ [']']) : unquoteAddress host = host := by
  unfold unquoteAddress
  split
  · rename_i hc
    obtain ⟨h1, h2, h3⟩ := hc
    cases host with
    | nil => rfl
    | cons c r =>
      simp at h1
      subst h1
      rcases List.eq_nil_or_concat r with rfl | ⟨m, d, rfl⟩
      · simp at h2
      · rw [List.concat_eq_append] at h2 h3 ⊢
        rw [← List.cons_append, List.getLast?_concat] at h2
        cases h2
        exact absurd (by simp) (h m (by simpa using h3))
  · rfl

example : quoteAddress "::1".toList = "[::1]".toList := by decide +kernel
example : unquoteAddress "[::1]".toList = "::1".toList := by decide +kernel
example : quoteAddress "localhost".toList = "localhost".toList := by decide +kernel
example : unquoteAddress "localhost".toList = "localhost".toList :=
  C42_unquoted _ (by
    intro m _ h
    have := congrArg List.head? h
    simp at this)

/-- Quoting an address that is quoted already adds brackets once more; all callers quote
hosts of `TCPAddress`, which are unquoted. -/
theorem C42_not_idempotent :
    quoteAddress (quoteAddress "::1".toList) = "[[::1]]".toList := by decide +kernel

/-! ### C41 -/

/-- The characters of a URL that are not interpreted by the URL parser. -/
def PlainText (s : List Char) : Prop :=
  '?' ∉ s ∧ '#' ∉ s ∧ '\t' ∉ s ∧ '\r' ∉ s ∧ '\n' ∉ s

/-- No colon of the text is followed by a digit. -/
def NoPort (s : List Char) : Prop := ∀ a d b, s = a ++ ':' :: d :: b → d.isDigit = false

theorem plain_of {s : List Char} (h : PlainText s) : ∀ c ∈ s, plain c = true := by
  obtain ⟨h1, h2, h3, h4, h5⟩ := h
  intro c hc
  simp only [plain, isUnsafe, Bool.and_eq_true, Bool.not_eq_true', Bool.or_eq_false_iff,
    bne_iff_ne, beq_eq_false_iff_ne, ne_eq]
  refine ⟨⟨⟨⟨?_, ?_⟩, ?_⟩, ?_⟩, ?_⟩ <;> rintro rfl <;> contradiction

theorem plain_suffix {e : Option (List Char)} (h : ∀ s, e = some s → PlainText s) :
    ∀ c ∈ exportSuffix e, plain c = true := by
  unfold exportSuffix
  split
  · simp
  · simp
  · rename_i s _
    intro c hc
    rcases List.mem_append.1 hc with hc | hc
    · have : ∀ c ∈ ":exportname=".toList, plain c = true := by decide
      exact this c hc
    · exact plain_of (h s rfl) c hc

theorem url_unix (e : Option (List Char)) (path : List Char) :
    Address.url e (.unix ('/' :: path)) =
      "nbd:".toList ++ ("unix:/".toList ++ path ++ exportSuffix e) := by
  rw [List.append_assoc]
  show "nbd:unix:".toList ++ ('/' :: path) ++ exportSuffix e = _
  rw [List.append_assoc]
  rfl

theorem url_tcp (e : Option (List Char)) (host : List Char) (port : Nat) :
    Address.url e (.tcp host port) =
      "nbd:".toList ++ (quoteAddress host ++ ':' :: (fmtNat port ++ exportSuffix e)) := by
  show "nbd:".toList ++ quoteAddress host ++ ':' :: fmtInt port ++ exportSuffix e = _
  rw [List.append_assoc, List.append_assoc]
  rfl

/-- The URL of a unix address is opened as the same address and export name, for every
absolute path without a colon and every export name, if the URL parser does not interpret
their characters.  Missing: paths and names with the special characters of URLs, see the
counterexamples. -/
theorem C41_unix_partial (ok : List Char → Bool) (path : List Char) (e : Option (List Char))
    (hp : PlainText path) (hc : ':' ∉ path) (hne : path ≠ [])
    (he : ∀ s, e = some s → PlainText s) :
    openUrl ok (Address.url e (.unix ('/' :: path))) =
      .ok (.unix ('/' :: path), e.getD []) := by
  have hu : urlparse ok (Address.url e (.unix ('/' :: path))) =
      some ⟨"nbd".toList, [], "unix:/".toList ++ path ++ exportSuffix e⟩ := by
    rw [url_unix]
    apply urlparse_nbd
    · intro c h
      rcases List.mem_append.1 h with h | h
      · rcases List.mem_append.1 h with h | h
        · have : ∀ c ∈ "unix:/".toList, plain c = true := by decide
          exact this c h
        · exact plain_of hp c h
      · exact plain_suffix he c h
    · intro r h
      simp at h
  have hx : unixGroups ("unix:/".toList ++ path ++ exportSuffix e) =
      some ('/' :: path, nameGroup (exportSuffix e)) := by
    rw [unixGroups, List.append_assoc, dropLit_append]
    have ht : (path ++ exportSuffix e).takeWhile (· != ':') = path ∧
        (path ++ exportSuffix e).dropWhile (· != ':') = exportSuffix e := by
      have hall : ∀ c ∈ path, (c != ':') = true := by
        intro c h; simp; rintro rfl; exact hc h
      unfold exportSuffix
      split
      · rw [List.append_nil]
        exact ⟨takeWhile_all hall, dropWhile_all hall⟩
      · rw [List.append_nil]
        exact ⟨takeWhile_all hall, dropWhile_all hall⟩
      · exact ⟨takeWhile_stop hall (by decide), dropWhile_stop hall (by decide)⟩
    simp only [ht.1, ht.2]
  have hn := nameGroup_suffix e (fun s hs => (he s hs).2.2.2.2)
  generalize "unix:/".toList ++ path ++ exportSuffix e = p at hu hx
  simp only [openUrl, hu, parseUrl, hx]
  simp [hn]

/-- The URL of a TCP address is opened as the same address and export name, for every
host (quoted if needed) and port, and every export name without a colon followed by a
digit.  Missing: see the counterexamples. -/
theorem C41_tcp_partial (ok : List Char → Bool) (host : List Char) (port : Nat)
    (e : Option (List Char)) (hp : PlainText host) (hne : host ≠ [])
    (hs : ∀ r, host ≠ '/' :: '/' :: r)
    (he : ∀ s, e = some s → PlainText s ∧ NoPort s) :
    openUrl ok (Address.url e (.tcp host port)) = .ok (.tcp host port, e.getD []) := by
  have hq : ∀ c ∈ quoteAddress host, plain c = true := by
    intro c hc
    unfold quoteAddress at hc
    split at hc
    · simp at hc
      rcases hc with rfl | hc | rfl
      · decide
      · exact plain_of hp c hc
      · decide
    · exact plain_of hp c hc
  have hd : Digits (fmtNat port) := ⟨(number_fmtNat port).1, decimal_digits (number_fmtNat port).2⟩
  have hdp : ∀ c ∈ fmtNat port, plain c = true := by
    intro c hc
    have h1 := hd.2 c hc
    simp only [plain, isUnsafe, Bool.and_eq_true, Bool.not_eq_true', Bool.or_eq_false_iff,
      bne_iff_ne, beq_eq_false_iff_ne, ne_eq]
    refine ⟨⟨⟨⟨?_, ?_⟩, ?_⟩, ?_⟩, ?_⟩ <;> rintro rfl <;> simp at h1
  have hu : urlparse ok (Address.url e (.tcp host port)) =
      some ⟨"nbd".toList, [], quoteAddress host ++ ':' :: (fmtNat port ++ exportSuffix e)⟩ := by
    rw [url_tcp]
    apply urlparse_nbd
    · intro c h
      simp only [List.mem_append, List.mem_cons] at h
      rcases h with h | rfl | h | h
      · exact hq c h
      · decide
      · exact hdp c h
      · exact plain_suffix (fun s hs => (he s hs).1) c h
    · intro r h
      unfold quoteAddress at h
      split at h
      · simp at h
      · match host, hne with
        | [c], _ => simp at h
        | c :: d :: t, _ =>
          simp at h
          exact hs t (by rw [h.1, h.2.1])
  have hx : unixGroups (quoteAddress host ++ ':' :: (fmtNat port ++ exportSuffix e)) = none := by
    cases h : dropLit "unix:/".toList
        (quoteAddress host ++ ':' :: (fmtNat port ++ exportSuffix e)) with
    | none => simp only [unixGroups, h]
    | some r =>
      exfalso
      have hh := dropLit_some h
      unfold quoteAddress at hh
      split at hh
      · simp at hh
      · rename_i hc
        have hall : ∀ c ∈ host, (c != ':') = true := by
          intro c h; simp; rintro rfl; exact hc h
        have hdrop := congrArg (List.dropWhile (· != ':')) hh
        rw [dropWhile_stop hall (by decide)] at hdrop
        have h2 : ("unix:/".toList ++ r).dropWhile (· != ':') = ':' :: '/' :: r :=
          dropWhile_stop (s := "unix".toList) (d := ':') (r := '/' :: r) (by decide) (by decide)
        rw [h2] at hdrop
        simp only [List.cons.injEq, true_and] at hdrop
        cases hf : fmtNat port with
        | nil => exact hd.1 hf
        | cons d ds =>
          rw [hf] at hdrop
          simp at hdrop
          have := hd.2 d (by rw [hf]; simp)
          rw [hdrop.1] at this
          simp at this
  have hsn : ¬ PortColon (exportSuffix e) ∧ ∀ c ∈ (exportSuffix e).head?, c.isDigit = false := by
    unfold exportSuffix
    split
    · exact ⟨by rintro ⟨a, d, b, h, -⟩; simp at h, by simp⟩
    · exact ⟨by rintro ⟨a, d, b, h, -⟩; simp at h, by simp⟩
    · rename_i s hs
      refine ⟨?_, by simp⟩
      rintro ⟨a, d, b, h, hd⟩
      have hns := (he s rfl).2
      -- the first colon of the suffix is followed by a letter
      have key : ∀ (l : List Char), ':' ∉ l → l ≠ [] → ∀ a : List Char,
          l ++ s = a ++ ':' :: d :: b → ∃ t, s = t ++ ':' :: d :: b := by
        intro l hl hlne
        clear h hlne
        induction l with
        | nil => intro a h; exact ⟨a, h⟩
        | cons c cs ih =>
          intro a h
          cases a with
          | nil => simp at h; simp [h.1] at hl
          | cons x xs =>
            simp at h
            exact ih (by simp at hl; exact hl.2) xs h.2
      cases a with
      | nil =>
        simp at h
        rw [← h.1] at hd
        simp at hd
      | cons x xs =>
        have h' : "exportname=".toList ++ s = xs ++ ':' :: d :: b := by
          simp at h
          simpa using h.2
        obtain ⟨t, ht⟩ := key _ (by decide) (by decide) xs h'
        rw [hns t d b ht] at hd
        cases hd
  have hqne : quoteAddress host ≠ [] := by
    unfold quoteAddress; split <;> simp [hne]
  have hqn : '\n' ∉ quoteAddress host := fun h => by
    have := hq _ h
    revert this; decide
  have hg := tcpGroups_eq [] (.inr hqne) hqn hd hsn.2 hsn.1
  have hn := nameGroup_suffix e (fun s hs => (he s hs).1.2.2.2.2)
  have hi : intOfDigits (fmtNat port) = port := (number_iff.1 (number_fmtNat port)).2.2
  simp only [openUrl, hu, parseUrl, hx, hg]
  simp [hn, hi, tcpAddress, C42_round_trip]

/-- The nice notation `nbd://host:port/export` denotes the host, the port, and the export
name after the first slash. -/
theorem C41_nice (ok : List Char → Bool) (host : List Char) (port : Nat) (export_ : List Char)
    (hp : PlainText host) (hh : '/' ∉ host) (hb : '[' ∈ host ↔ ']' ∈ host)
    (he : PlainText export_) (hok : ok (host ++ ':' :: fmtNat port) = true) :
    openUrl ok ("nbd://".toList ++ host ++ ':' :: fmtNat port ++ '/' :: export_) =
      .ok (.tcp (unquoteAddress host) port, export_) := by
  have hpl := plain_of hp
  have hel := plain_of he
  have hd : Digits (fmtNat port) := ⟨(number_fmtNat port).1, decimal_digits (number_fmtNat port).2⟩
  have hdd : ∀ c ∈ fmtNat port, plain c = true ∧ c ≠ '/' ∧ c ≠ '[' ∧ c ≠ ']' ∧ c ≠ ':' := by
    intro c hc
    have h1 := hd.2 c hc
    simp only [plain, isUnsafe, Bool.and_eq_true, Bool.not_eq_true', Bool.or_eq_false_iff,
      bne_iff_ne, beq_eq_false_iff_ne, ne_eq]
    refine ⟨⟨⟨⟨⟨?_, ?_⟩, ?_⟩, ?_⟩, ?_⟩, ?_, ?_, ?_, ?_⟩ <;> rintro rfl <;> simp at h1
  have hu : urlparse ok ("nbd:".toList ++
      ('/' :: '/' :: ((host ++ ':' :: fmtNat port) ++ '/' :: export_))) =
      some ⟨"nbd".toList, host ++ ':' :: fmtNat port, '/' :: export_⟩ := by
    apply urlparse_netloc
    · intro c hc
      simp only [List.mem_append, List.mem_cons] at hc
      rcases hc with hc | rfl | hc
      · exact ⟨hpl c hc, fun h => hh (h ▸ hc)⟩
      · exact ⟨by decide, by decide⟩
      · exact ⟨(hdd c hc).1, (hdd c hc).2.1⟩
    · exact hel
    · have h1 : ('[' ∈ host ++ ':' :: fmtNat port) ↔ '[' ∈ host := by
        simp only [List.mem_append, List.mem_cons]
        constructor
        · rintro (h | h | h)
          · exact h
          · exact absurd h (by decide)
          · exact absurd rfl (hdd _ h).2.2.1
        · exact .inl
      have h2 : (']' ∈ host ++ ':' :: fmtNat port) ↔ ']' ∈ host := by
        simp only [List.mem_append, List.mem_cons]
        constructor
        · rintro (h | h | h)
          · exact h
          · exact absurd h (by decide)
          · exact absurd rfl (hdd _ h).2.2.2.1
        · exact .inl
      rw [h1, h2, hb]
    · exact hok
  have hr : rsplitColon (host ++ ':' :: fmtNat port) = (host, fmtNat port) := by
    have hall : ∀ c ∈ (fmtNat port).reverse, (c != ':') = true := by
      intro c hc
      simpa using (hdd c (by simpa using hc)).2.2.2.2
    have hrev : (host ++ ':' :: fmtNat port).reverse = (fmtNat port).reverse ++ ':' :: host.reverse := by
      simp
    rw [rsplitColon, hrev, takeWhile_stop hall (by decide), dropWhile_stop hall (by decide)]
    simp
  have hurl : "nbd://".toList ++ host ++ ':' :: fmtNat port ++ '/' :: export_ =
      "nbd:".toList ++ ('/' :: '/' :: ((host ++ ':' :: fmtNat port) ++ '/' :: export_)) := by
    rw [List.append_assoc "nbd://".toList, List.append_assoc "nbd://".toList]
    rfl
  have hi : pyInt (fmtNat port) = some (port : Int) := pyInt_number (number_fmtNat port)
  have hm : ':' ∈ host ++ ':' :: fmtNat port := by simp
  rw [hurl]
  generalize host ++ ':' :: fmtNat port = n at hu hr hm
  simp only [openUrl, hu, parseUrl, hr, hi, if_pos hm]
  simp [tcpAddress]

/-- URLs with another scheme are refused. -/
theorem C41_scheme (u : Parsed) (h : u.scheme ≠ "nbd".toList) :
    parseUrl u = .error .unsupportedScheme := by
  rw [parseUrl, if_pos h]

/-- The URL of an image on a host, `https://host:port/dir/name`, with or without a query: the host and port, and the path up to the
query.  In the last part of the path everything from a semicolon on is dropped, as it is for `http`. -/
theorem C41_http (ok : List Char → Bool) (secure : Bool) (netloc dir name tail rest : List Char)
    (hn : PlainText netloc) (hs : '/' ∉ netloc) (hb : '[' ∈ netloc ↔ ']' ∈ netloc) (hok : ok netloc = true)
    (hd : PlainText dir) (hde : dir.getLast? = some '/') (hds : dir.head? = some '/')
    (hm : PlainText name) (hms : '/' ∉ name) (hmc : ';' ∉ name)
    (ht : PlainText tail) (hts : '/' ∉ tail) (htc : tail = [] ∨ tail.head? = some ';')
    (hr : rest = [] ∨ ∃ r, PlainText r ∧ rest = '?' :: r) :
    urlparse ok ((if secure then "https" else "http").toList ++ ("://".toList ++ (netloc ++ (dir ++ (name ++ (tail ++ rest)))))) =
      some ⟨(if secure then "https" else "http").toList, netloc, dir ++ name⟩ := by
  have hplain : ∀ {s : List Char}, PlainText s → ∀ c ∈ s, isUnsafe c = false ∧ c ≠ '?' ∧ c ≠ '#' := by
    intro s h c hc
    simpa [plain, and_assoc] using plain_of h c hc
  have hrest : ∀ c ∈ rest, isUnsafe c = false ∧ c ≠ '#' := by
    rcases hr with rfl | ⟨r, hr, rfl⟩
    · simp
    · intro c hc
      rcases List.mem_cons.1 hc with rfl | hc
      · decide
      · exact ⟨(hplain hr c hc).1, (hplain hr c hc).2.2⟩
  obtain ⟨d, rfl⟩ : ∃ d, dir = '/' :: d := by
    cases dir with
    | nil => simp at hds
    | cons a d => simp only [List.head?_cons, Option.some.injEq] at hds; exact ⟨d, by rw [hds]⟩
  have hpath : ∀ c ∈ ('/' :: d) ++ (name ++ tail), isUnsafe c = false ∧ c ≠ '?' ∧ c ≠ '#' := by
    intro c hc
    simp only [List.mem_append] at hc
    rcases hc with hc | hc | hc
    · exact hplain hd c hc
    · exact hplain hm c hc
    · exact hplain ht c hc
  have hcut : cutAt '?' (cutAt '#' (('/' :: d) ++ (name ++ (tail ++ rest)))) = ('/' :: d) ++ (name ++ tail) := by
    rw [cutAt_plain (c := '#')]
    · rw [← List.append_assoc name, ← List.append_assoc]
      rcases hr with rfl | ⟨r, hr, rfl⟩
      · rw [List.append_nil]
        exact cutAt_plain fun c hc => (hpath c hc).2.1
      · exact takeWhile_stop (fun c hc => by simpa using (hpath c hc).2.1) (by decide)
    · intro c hc
      simp only [← List.append_assoc, List.mem_append] at hc
      rcases hc with hc | hc
      · exact (hpath c (by simpa [or_assoc] using hc)).2.2
      · exact (hrest c hc).2
  have hparams : dropParams (('/' :: d) ++ (name ++ tail)) = ('/' :: d) ++ name := by
    obtain ⟨d', hd'⟩ : ∃ d', '/' :: d = d' ++ ['/'] := List.getLast?_eq_some_iff.1 hde
    have hall : ∀ c ∈ (name ++ tail).reverse, (c != '/') = true := by
      intro c hc
      simp only [List.mem_reverse, List.mem_append] at hc
      simp only [bne_iff_ne, ne_eq]
      rintro rfl
      exact hc.elim hms hts
    have hrev : (('/' :: d) ++ (name ++ tail)).reverse = (name ++ tail).reverse ++ '/' :: d'.reverse := by
      rw [hd']; simp
    have hlast : cutAt ';' (name ++ tail) = name := by
      rcases htc with rfl | htc
      · rw [List.append_nil]
        exact cutAt_plain fun c hc => by rintro rfl; exact hmc hc
      · cases tail with
        | nil => simp at htc
        | cons a t =>
          simp only [List.head?_cons, Option.some.injEq] at htc
          subst htc
          exact takeWhile_stop (fun c hc => by
            simp only [bne_iff_ne, ne_eq]; rintro rfl; exact hmc hc) (by decide)
    simp only [dropParams, splitLastSlash, hrev, dropWhile_stop hall (d := '/') (by decide),
      takeWhile_stop hall (d := '/') (by decide), List.reverse_reverse, hlast]
    rw [hd']; simp
  have hnet : splitNetloc (netloc ++ (('/' :: d) ++ (name ++ (tail ++ rest)))) =
      (netloc, ('/' :: d) ++ (name ++ (tail ++ rest))) := by
    have hall : ∀ c ∈ netloc, (c != '/' && c != '?' && c != '#') = true := by
      intro c hc
      obtain ⟨-, b, c'⟩ := hplain hn c hc
      have : c ≠ '/' := fun h => hs (h ▸ hc)
      simp [this, b, c']
    rw [splitNetloc, List.cons_append, takeWhile_stop hall (by decide), dropWhile_stop hall (by decide)]
  have e7 : ¬ ('[' ∈ netloc ∧ ']' ∉ netloc ∨ ']' ∈ netloc ∧ '[' ∉ netloc) := by
    rw [hb]
    rintro (⟨a, b⟩ | ⟨a, b⟩) <;> exact b a
  generalize hs : netloc ++ (('/' :: d) ++ (name ++ (tail ++ rest))) = s
  have hu : ∀ c ∈ s, isUnsafe c = false := by
    intro c hc
    rw [← hs] at hc
    simp only [← List.append_assoc, List.mem_append] at hc
    rcases hc with hc | hc
    · rcases hc with ((hc | hc) | hc) | hc
      · exact (hplain hn c hc).1
      · exact (hplain hd c hc).1
      · exact (hplain hm c hc).1
      · exact (hplain ht c hc).1
    · exact (hrest c hc).1
  cases secure with
  | false =>
    simp only [Bool.false_eq_true, if_false]
    have e1 : ("http".toList ++ ("://".toList ++ s)).dropWhile isControlOrSpace = "http".toList ++ ("://".toList ++ s) := by
      show ('h' :: ("ttp://".toList ++ s)).dropWhile isControlOrSpace = _
      rw [List.dropWhile_cons_of_neg (by decide)]
      rfl
    have e2 : ("http".toList ++ ("://".toList ++ s)).filter (fun c => !isUnsafe c) = "http".toList ++ ("://".toList ++ s) := by
      rw [← List.append_assoc]
      apply List.filter_eq_self.2
      intro c hc
      rcases List.mem_append.1 hc with hc | hc
      · have : ∀ c ∈ "http".toList ++ "://".toList, (!isUnsafe c) = true := by decide
        exact this c hc
      · simp [hu c hc]
    have e3 : splitScheme ("http".toList ++ ("://".toList ++ s)) = ("http".toList, '/' :: '/' :: s) := by
      have t : ("http".toList ++ ("://".toList ++ s)).takeWhile (· != ':') = "http".toList :=
        takeWhile_stop (s := "http".toList) (d := ':') (r := '/' :: '/' :: s) (by decide) (by decide)
      have d : ("http".toList ++ ("://".toList ++ s)).dropWhile (· != ':') = ':' :: '/' :: '/' :: s :=
        dropWhile_stop (s := "http".toList) (d := ':') (r := '/' :: '/' :: s) (by decide) (by decide)
      simp only [splitScheme, t, d]
      rfl
    have e5 : "http".toList ∈ usesParams := by decide
    simp only [urlparse, e1, e2, e3]
    subst hs
    simp only [hnet, if_neg e7, hok, if_true, if_pos e5]
    rw [hcut, hparams]
  | true =>
    simp only [if_true]
    have e1 : ("https".toList ++ ("://".toList ++ s)).dropWhile isControlOrSpace = "https".toList ++ ("://".toList ++ s) := by
      show ('h' :: ("ttps://".toList ++ s)).dropWhile isControlOrSpace = _
      rw [List.dropWhile_cons_of_neg (by decide)]
      rfl
    have e2 : ("https".toList ++ ("://".toList ++ s)).filter (fun c => !isUnsafe c) = "https".toList ++ ("://".toList ++ s) := by
      rw [← List.append_assoc]
      apply List.filter_eq_self.2
      intro c hc
      rcases List.mem_append.1 hc with hc | hc
      · have : ∀ c ∈ "https".toList ++ "://".toList, (!isUnsafe c) = true := by decide
        exact this c hc
      · simp [hu c hc]
    have e3 : splitScheme ("https".toList ++ ("://".toList ++ s)) = ("https".toList, '/' :: '/' :: s) := by
      have t : ("https".toList ++ ("://".toList ++ s)).takeWhile (· != ':') = "https".toList :=
        takeWhile_stop (s := "https".toList) (d := ':') (r := '/' :: '/' :: s) (by decide) (by decide)
      have d : ("https".toList ++ ("://".toList ++ s)).dropWhile (· != ':') = ':' :: '/' :: '/' :: s :=
        dropWhile_stop (s := "https".toList) (d := ':') (r := '/' :: '/' :: s) (by decide) (by decide)
      simp only [splitScheme, t, d]
      rfl
    have e5 : "https".toList ∈ usesParams := by decide
    simp only [urlparse, e1, e2, e3]
    subst hs
    simp only [hnet, if_neg e7, hok, if_true, if_pos e5]
    rw [hcut, hparams]

/-- The URL of an image, with parameters and a query. -/
example : urlparse (fun _ => true) "https://[::1]:54322/images/disk;a=1?close=n".toList =
    some ⟨"https".toList, "[::1]:54322".toList, "/images/disk".toList⟩ :=
  C41_http (fun _ => true) true "[::1]:54322".toList "/images/".toList "disk".toList ";a=1".toList "?close=n".toList
    (by unfold PlainText; decide) (by decide) (by decide) rfl (by unfold PlainText; decide) (by decide) (by decide)
    (by unfold PlainText; decide) (by decide) (by decide) (by unfold PlainText; decide) (by decide) (.inr rfl)
    (.inr ⟨"close=n".toList, by unfold PlainText; decide, rfl⟩)

/-- The scheme of a URL is the text before the first colon, in lower case, if it has the characters of a scheme and begins with a
letter; otherwise the URL has no scheme, and is not supported. -/
theorem C41_scheme_case (ok : List Char → Bool) (s r : List Char) (u : Parsed)
    (hs : ∀ c ∈ s, c.isAlphanum = true ∨ c = '+' ∨ c = '-' ∨ c = '.') (hne : s ≠ []) (h : urlparse ok (s ++ ':' :: r) = some u) :
    u.scheme = if (∃ c, s.head? = some c ∧ c.isAlpha = true) then s.map Char.toLower else [] := by
  have hchar : ∀ c ∈ s, isSchemeChar c = true := by
    intro c hc
    simp only [isSchemeChar, Bool.or_eq_true, beq_iff_eq]
    rcases hs c hc with h | h | h | h <;> simp [h]
  have hval : ∀ c, isSchemeChar c = true → isUnsafe c = false ∧ (c != ':') = true ∧ isControlOrSpace c = false := by
    intro c hc
    have hn : ∀ n : Nat, c.toNat ≤ 32 ∨ c.toNat = 58 → False := by
      intro _ hn
      have hcases : c.isAlphanum = true ∨ c = '+' ∨ c = '-' ∨ c = '.' := by
        simpa [isSchemeChar, or_assoc] using hc
      rcases hcases with h | rfl | rfl | rfl
      · simp only [Char.isAlphanum, Char.isAlpha, Char.isUpper, Char.isLower, Char.isDigit, Bool.or_eq_true, Bool.and_eq_true,
          decide_eq_true_eq, UInt32.le_iff_toNat_le] at h
        have e : c.val.toNat = c.toNat := rfl
        simp only [e] at h
        simp at h
        omega
      · revert hn; decide
      · revert hn; decide
      · revert hn; decide
    refine ⟨?_, ?_, ?_⟩
    · cases hx : isUnsafe c with
      | false => rfl
      | true =>
        simp only [isUnsafe, Bool.or_eq_true, beq_iff_eq, or_assoc] at hx
        exact (hn 0 (by rcases hx with rfl | rfl | rfl <;> decide)).elim
    · simp only [bne_iff_ne, ne_eq]
      rintro rfl
      exact hn 0 (by decide)
    · cases hx : isControlOrSpace c with
      | false => rfl
      | true => exact (hn 0 (.inl (by simpa [isControlOrSpace] using hx))).elim
  obtain ⟨a, s', rfl⟩ : ∃ a s', s = a :: s' := by
    cases s with
    | nil => exact absurd rfl hne
    | cons a s' => exact ⟨a, s', rfl⟩
  have e1 : ((a :: s') ++ ':' :: r).dropWhile isControlOrSpace = (a :: s') ++ ':' :: r := by
    rw [List.cons_append, List.dropWhile_cons_of_neg]
    simp [(hval a (hchar a (by simp))).2.2]
  have e2 : ((a :: s') ++ ':' :: r).filter (fun c => !isUnsafe c) = (a :: s') ++ ':' :: r.filter (fun c => !isUnsafe c) := by
    rw [List.filter_append, List.filter_eq_self.2 fun c hc => by simp [(hval c (hchar c hc)).1]]
    rfl
  have hall : ∀ c ∈ a :: s', (c != ':') = true := fun c hc => (hval c (hchar c hc)).2.1
  have e3 : (splitScheme ((a :: s') ++ ':' :: r.filter (fun c => !isUnsafe c))).1 =
      if (∃ c, (a :: s').head? = some c ∧ c.isAlpha = true) then (a :: s').map Char.toLower else [] := by
    simp only [splitScheme, takeWhile_stop hall (d := ':') (by decide), dropWhile_stop hall (d := ':') (by decide)]
    have : (a :: s').all isSchemeChar = true := List.all_eq_true.2 hchar
    simp only [this, Bool.and_true, List.head?_cons, Option.some.injEq, exists_eq_left']
    split <;> simp_all
  have e4 : ∀ x, urlparse ok ((a :: s') ++ ':' :: r) = some x →
      x.scheme = (splitScheme ((a :: s') ++ ':' :: r.filter (fun c => !isUnsafe c))).1 := by
    intro x hx
    simp only [urlparse, e1, e2] at hx
    split at hx
    · split at hx
      · simp at hx
      · split at hx
        · simp only [Option.some.injEq] at hx; rw [← hx]
        · simp at hx
    · simp only [Option.some.injEq] at hx; rw [← hx]
  rw [e4 u h, e3]

/-- Schemes in upper case, and one that begins with a digit. -/
example : (urlparse (fun _ => true) "FILE:///disk".toList).map Parsed.scheme = some "file".toList ∧
    (urlparse (fun _ => true) "4file:///disk".toList).map Parsed.scheme = some [] := by decide +kernel

/-- The URL of a local file is opened as the same file; everything in the path counts, also a semicolon.
Partial: not for paths with a question mark or number sign (`C41_counterexample_file`) or with a tab or the end of a line. -/
theorem C41_file_partial (ok : List Char → Bool) (path : List Char) (hp : PlainText path) (hok : ok [] = true) :
    urlparse ok ("file://".toList ++ '/' :: path) = some ⟨"file".toList, [], '/' :: path⟩ := by
  have hpl : ∀ c ∈ '/' :: path, isUnsafe c = false ∧ c ≠ '?' ∧ c ≠ '#' := by
    intro c hc
    rcases List.mem_cons.1 hc with rfl | hc
    · decide
    · simpa [plain, and_assoc] using plain_of hp c hc
  generalize hs : '/' :: path = s
  rw [hs] at hpl
  have e1 : ("file://".toList ++ s).dropWhile isControlOrSpace = "file://".toList ++ s := by
    show ('f' :: ("ile://".toList ++ s)).dropWhile isControlOrSpace = _
    rw [List.dropWhile_cons_of_neg (by decide)]
    rfl
  have e2 : ("file://".toList ++ s).filter (fun c => !isUnsafe c) = "file://".toList ++ s := by
    apply List.filter_eq_self.2
    intro c hc
    rcases List.mem_append.1 hc with hc | hc
    · have : ∀ c ∈ "file://".toList, (!isUnsafe c) = true := by decide
      exact this c hc
    · simp [(hpl c hc).1]
  have e3 : splitScheme ("file://".toList ++ s) = ("file".toList, '/' :: '/' :: s) := by
    have t : ("file://".toList ++ s).takeWhile (· != ':') = "file".toList :=
      takeWhile_stop (s := "file".toList) (d := ':') (r := '/' :: '/' :: s) (by decide) (by decide)
    have d : ("file://".toList ++ s).dropWhile (· != ':') = ':' :: '/' :: '/' :: s :=
      dropWhile_stop (s := "file".toList) (d := ':') (r := '/' :: '/' :: s) (by decide) (by decide)
    simp only [splitScheme, t, d]
    rfl
  have e4 : cutAt '?' (cutAt '#' s) = s := by
    rw [cutAt_plain (c := '#') (s := s) fun c hc => (hpl c hc).2.2, cutAt_plain fun c hc => (hpl c hc).2.1]
  have e5 : "file".toList ∉ usesParams := by decide
  have e6 : splitNetloc s = ([], s) := by rw [← hs]; rfl
  simp only [urlparse, e1, e2, e3, e6, hok, if_neg e5]
  simp [e4]

/-- A file with a semicolon and a colon in its name. -/
example : urlparse (fun _ => true) "file:///images/a;b:c d".toList = some ⟨"file".toList, [], "/images/a;b:c d".toList⟩ :=
  C41_file_partial _ "images/a;b:c d".toList (by unfold PlainText; decide) rfl

/-- Other files have a URL too: the URL of `/images/a#1` is opened as `/images/a`. -/
theorem C41_counterexample_file :
    urlparse (fun _ => true) "file:///images/a#1".toList = some ⟨"file".toList, [], "/images/a".toList⟩ ∧
      urlparse (fun _ => true) "file:///images/a?b".toList = some ⟨"file".toList, [], "/images/a".toList⟩ := by decide +kernel

/-- A TCP export name with a colon and digits is taken for the port: the URL generated for
export `disk:5` of `localhost:10809` is opened as host `localhost:10809:exportname=disk`,
port 5, with the default export. -/
theorem C41_counterexample_export_port :
    openUrl (fun _ => true) (Address.url (some "disk:5".toList) (.tcp "localhost".toList 10809)) =
      .ok (.tcp "localhost:10809:exportname=disk".toList 5, []) := by
  decide +kernel

/-- An export name with a question mark is cut: `a?b` is opened as `a`. -/
theorem C41_counterexample_query :
    openUrl (fun _ => true) (Address.url (some "a?b".toList) (.unix "/sock".toList)) =
      .ok (.unix "/sock".toList, "a".toList) := by
  decide +kernel

/-- A socket path with a colon is cut at the colon. -/
theorem C41_counterexample_path_colon :
    openUrl (fun _ => true) (Address.url none (.unix "/run/a:b".toList)) =
      .ok (.unix "/run/a".toList, []) := by
  decide +kernel

/-- A relative socket path is taken for a TCP host, or refused. -/
theorem C41_counterexample_relative :
    openUrl (fun _ => true) (Address.url none (.unix "sock".toList)) = .error .unsupportedUrl := by
  decide +kernel

example : openUrl (fun _ => true) (Address.url (some "sda".toList) (.tcp "::1".toList 10809)) =
    .ok (.tcp "::1".toList 10809, "sda".toList) :=
  C41_tcp_partial _ "::1".toList 10809 (some "sda".toList) (by unfold PlainText; decide) (by decide)
    (by intro r h; simp at h) (by
      rintro s hs
      cases hs
      refine ⟨by unfold PlainText; decide, ?_⟩
      intro a d b h
      have : ':' ∈ "sda".toList := by rw [h]; simp
      exact absurd this (by decide))
example : openUrl (fun _ => true) (Address.url (some "sda".toList) (.unix "/sock".toList)) =
    .ok (.unix "/sock".toList, "sda".toList) :=
  C41_unix_partial _ "sock".toList (some "sda".toList) (by unfold PlainText; decide) (by decide)
    (by decide) (by rintro s hs; cases hs; unfold PlainText; decide)
example : openUrl (fun _ => true) "nbd://[::1]:10809/sda".toList =
    .ok (.tcp "::1".toList 10809, "sda".toList) := by decide +kernel

end Imageio.Props
