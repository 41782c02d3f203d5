import Verif.Model.Url
import Verif.Lemmas.HttpServer

/-! Lemmas about URLs. -/
namespace Imageio.Url
open Imageio.Http Imageio.Spec

theorem takeWhile_all {p : Char → Bool} {s : Str} (h : ∀ c ∈ s, p c = true) : s.takeWhile p = s := by
  induction s with
  | nil => rfl
  | cons c cs ih => simp [h c (by simp), ih (fun c hc => h c (by simp [hc]))]

theorem takeWhile_stop {p : Char → Bool} {s : Str} {d : Char} {r : Str}
    (h : ∀ c ∈ s, p c = true) (hd : p d = false) : (s ++ d :: r).takeWhile p = s := by
  induction s with
  | nil => simp [hd]
  | cons c cs ih => simp [h c (by simp), ih (fun c hc => h c (by simp [hc]))]

theorem dropWhile_stop {p : Char → Bool} {s : Str} {d : Char} {r : Str}
    (h : ∀ c ∈ s, p c = true) (hd : p d = false) : (s ++ d :: r).dropWhile p = d :: r := by
  induction s with
  | nil => simp [hd]
  | cons c cs ih => simp [h c (by simp), ih (fun c hc => h c (by simp [hc]))]

theorem dropWhile_all {p : Char → Bool} {s : Str} (h : ∀ c ∈ s, p c = true) :
    s.dropWhile p = [] := by
  induction s with
  | nil => rfl
  | cons c cs ih => simp [h c (by simp), ih (fun c hc => h c (by simp [hc]))]

/-- The characters that survive `urlparse` in a path. -/
def plain (c : Char) : Bool := !isUnsafe c && c != '?' && c != '#'

theorem cutAt_plain {c : Char} {s : Str} (h : ∀ x ∈ s, x ≠ c) : cutAt c s = s :=
  takeWhile_all (by simpa [cutAt] using h)

/-- A URL `nbd:` with a path of plain characters that does not start with `//`. -/
theorem urlparse_nbd (ok : Str → Bool) {s : Str} (h : ∀ c ∈ s, plain c = true)
    (hs : ∀ r, s ≠ '/' :: '/' :: r) :
    urlparse ok ("nbd:".toList ++ s) = some ⟨"nbd".toList, [], s⟩ := by
  have h1 : ∀ c ∈ s, isUnsafe c = false ∧ c ≠ '?' ∧ c ≠ '#' := by
    intro c hc
    simpa [plain, and_assoc] using h c hc
  have e1 : ("nbd:".toList ++ s).dropWhile isControlOrSpace = "nbd:".toList ++ s := by
    show ('n' :: ("bd:".toList ++ s)).dropWhile isControlOrSpace = _
    rw [List.dropWhile_cons_of_neg (by decide)]
    rfl
  have e2 : ("nbd:".toList ++ s).filter (fun c => !isUnsafe c) = "nbd:".toList ++ s := by
    apply List.filter_eq_self.2
    intro c hc
    rcases List.mem_append.1 hc with hc | hc
    · have : ∀ c ∈ "nbd:".toList, (!isUnsafe c) = true := by decide
      exact this c hc
    · simp [(h1 c hc).1]
  have e3 : splitScheme ("nbd:".toList ++ s) = ("nbd".toList, s) := by
    have t : ("nbd:".toList ++ s).takeWhile (· != ':') = "nbd".toList :=
      takeWhile_stop (s := "nbd".toList) (d := ':') (r := s) (by decide) (by decide)
    have d : ("nbd:".toList ++ s).dropWhile (· != ':') = ':' :: s :=
      dropWhile_stop (s := "nbd".toList) (d := ':') (r := s) (by decide) (by decide)
    simp only [splitScheme, t, d]
    rfl
  have e4 : cutAt '?' (cutAt '#' s) = s := by
    rw [cutAt_plain (fun c hc => (h1 c hc).2.2), cutAt_plain (fun c hc => (h1 c hc).2.1)]
  have e5 : "nbd".toList ∉ usesParams := by decide
  simp only [urlparse, e1, e2, e3, if_neg e5]
  rw [e4]

/-- A URL `nbd://netloc/path` of plain characters. -/
theorem urlparse_netloc (ok : Str → Bool) {n e : Str} (h : ∀ c ∈ n, plain c = true ∧ c ≠ '/')
    (he : ∀ c ∈ e, plain c = true) (hb : '[' ∈ n ↔ ']' ∈ n) (hok : ok n = true) :
    urlparse ok ("nbd:".toList ++ ('/' :: '/' :: (n ++ '/' :: e))) =
      some ⟨"nbd".toList, n, '/' :: e⟩ := by
  have hn : ∀ c ∈ n, isUnsafe c = false ∧ c ≠ '?' ∧ c ≠ '#' ∧ c ≠ '/' := by
    intro c hc
    simpa [plain, and_assoc] using h c hc
  have h1 : ∀ c ∈ e, isUnsafe c = false ∧ c ≠ '?' ∧ c ≠ '#' := by
    intro c hc
    simpa [plain, and_assoc] using he c hc
  generalize hs : '/' :: '/' :: (n ++ '/' :: e) = s
  have hu : ∀ c ∈ s, isUnsafe c = false := by
    intro c hc
    rw [← hs] at hc
    simp only [List.mem_cons, List.mem_append] at hc
    rcases hc with rfl | rfl | hc | rfl | hc
    · decide
    · decide
    · exact (hn c hc).1
    · decide
    · exact (h1 c hc).1
  have e1 : ("nbd:".toList ++ s).dropWhile isControlOrSpace = "nbd:".toList ++ s := by
    show ('n' :: ("bd:".toList ++ s)).dropWhile isControlOrSpace = _
    rw [List.dropWhile_cons_of_neg (by decide)]
    rfl
  have e2 : ("nbd:".toList ++ s).filter (fun c => !isUnsafe c) = "nbd:".toList ++ s := by
    apply List.filter_eq_self.2
    intro c hc
    rcases List.mem_append.1 hc with hc | hc
    · have : ∀ c ∈ "nbd:".toList, (!isUnsafe c) = true := by decide
      exact this c hc
    · simp [hu c hc]
  have e3 : splitScheme ("nbd:".toList ++ s) = ("nbd".toList, s) := by
    have t : ("nbd:".toList ++ s).takeWhile (· != ':') = "nbd".toList :=
      takeWhile_stop (s := "nbd".toList) (d := ':') (r := s) (by decide) (by decide)
    have d : ("nbd:".toList ++ s).dropWhile (· != ':') = ':' :: s :=
      dropWhile_stop (s := "nbd".toList) (d := ':') (r := s) (by decide) (by decide)
    simp only [splitScheme, t, d]
    rfl
  have e4 : cutAt '?' (cutAt '#' ('/' :: e)) = '/' :: e := by
    rw [cutAt_plain (c := '#') (s := '/' :: e), cutAt_plain]
    · intro c hc
      rcases List.mem_cons.1 hc with rfl | hc
      · decide
      · exact (h1 c hc).2.1
    · intro c hc
      rcases List.mem_cons.1 hc with rfl | hc
      · decide
      · exact (h1 c hc).2.2
  have e5 : "nbd".toList ∉ usesParams := by decide
  have e6 : splitNetloc (n ++ '/' :: e) = (n, '/' :: e) := by
    have hall : ∀ c ∈ n, (c != '/' && c != '?' && c != '#') = true := by
      intro c hc
      obtain ⟨-, a, b, c⟩ := hn c hc
      simp [a, b, c]
    rw [splitNetloc, takeWhile_stop hall (by decide), dropWhile_stop hall (by decide)]
  have e7 : ¬ ('[' ∈ n ∧ ']' ∉ n ∨ ']' ∈ n ∧ '[' ∉ n) := by
    rw [hb]
    rintro (⟨a, b⟩ | ⟨a, b⟩) <;> exact b a
  simp only [urlparse, e1, e2, e3]
  subst hs
  simp only [e6, if_neg e7, hok, if_true, if_neg e5]
  rw [e4]

theorem nameGroup_suffix (e : Option Str) (he : ∀ s, e = some s → '\n' ∉ s) :
    (nameGroup (exportSuffix e)).getD [] = e.getD [] := by
  unfold exportSuffix
  split
  · rfl
  · rfl
  · rename_i s hs
    have h1 : dropLit "::exportname=".toList (":exportname=".toList ++ s) = none := rfl
    rw [nameGroup, h1, dropLit_append]
    simp only [Option.getD_some]
    exact takeWhile_all (by
      intro c hc
      simp
      rintro rfl
      exact he s rfl hc)

/-- A colon that starts a port: it is followed by a digit. -/
def PortColon (s : Str) : Prop := ∃ a d b, s = a ++ ':' :: d :: b ∧ d.isDigit = true

theorem tcpGroups_none {s : Str} (pre : Str) (h : ¬ PortColon s) : tcpGroups pre s = none := by
  induction s generalizing pre with
  | nil => rfl
  | cons c r ih =>
    have hr : ¬ PortColon r := by
      rintro ⟨a, d, b, rfl, hd⟩
      exact h ⟨c :: a, d, b, rfl, hd⟩
    rw [tcpGroups]
    have hl : (if c = '\n' then none else tcpGroups (c :: pre) r) = none := by
      split
      · rfl
      · exact ih _ hr
    rw [hl]
    simp only
    split
    · rename_i hc
      cases r with
      | nil => rfl
      | cons d b =>
        have hd : d.isDigit = false := by
          cases hd : d.isDigit with
          | false => rfl
          | true => exact absurd ⟨[], d, b, by rw [hc.1]; rfl, hd⟩ h
        simp [spanDigits, hd]
    · rfl

/-- The host is the text before the last colon that starts a port. -/
theorem tcpGroups_eq {host port rest : Str} (pre : Str) (hne : pre ≠ [] ∨ host ≠ [])
    (hn : '\n' ∉ host) (hp : Digits port) (hr : ∀ c ∈ rest.head?, c.isDigit = false)
    (hno : ¬ PortColon rest) :
    tcpGroups pre (host ++ ':' :: (port ++ rest)) =
      some (pre.reverse ++ host, port, nameGroup rest) := by
  induction host generalizing pre with
  | nil =>
    have hpc : ¬ PortColon (port ++ rest) := by
      rintro ⟨a, d, b, he, hd⟩
      have hlen : port.length ≤ a.length := by
        rcases Nat.lt_or_ge a.length port.length with hlt | hge
        · have hc : (port ++ rest)[a.length]? = some ':' := by rw [he]; simp
          rw [List.getElem?_append_left hlt] at hc
          have := hp.2 ':' (List.mem_of_getElem? hc)
          simp at this
        · exact hge
      obtain ⟨t, rfl⟩ : ∃ t, a = port ++ t := by
        have := congrArg (List.take port.length) he
        rw [List.take_left', List.take_append_of_le_length hlen] at this
        · exact ⟨a.drop port.length, by rw [← List.take_append_drop port.length a, ← this]; simp⟩
        · rfl
      rw [List.append_assoc] at he
      exact hno ⟨t, d, b, List.append_cancel_left he, hd⟩
    have hpre : pre ≠ [] := by simpa using hne
    rw [List.nil_append, tcpGroups, if_neg (by decide), tcpGroups_none _ hpc]
    simp only [true_and, hpre, ne_eq, not_false_eq_true, if_true]
    rw [spanDigits_append hp.2 hr]
    cases hq : port with
    | nil => exact absurd hq hp.1
    | cons d ds => simp
  | cons c cs ih =>
    have hc : c ≠ '\n' := by rintro rfl; simp at hn
    rw [List.cons_append, tcpGroups, if_neg hc,
      ih (c :: pre) (.inl (by simp)) (by simp at hn; exact hn.2)]
    simp

end Imageio.Url
