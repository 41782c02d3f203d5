import Verif.Model.Algorithms
import Verif.Props.Checksum
/-!
C102: the algorithms that the server lists, and the algorithms that it can use.
-/
namespace Imageio.Props
open Imageio.Spec Imageio.Extents Imageio.Http Imageio.Images Imageio.Blkhash

/-- The digest function that an algorithm should have, by its constructor: `blake2b` and `blake2s` with 32 bytes, and the
others with their own length. -/
inductive Digest (lib : Algorithms.Library) (name : Str) : (Bytes → Bytes) → Prop
  | fixed {f : Bytes → Bytes} : lib.attr name = some (.fixed f) → (¬ ∃ r, name = lit "blake2" ++ r) → Digest lib name f
  | blake {f : Option Nat → Bytes → Bytes} : lib.attr name = some (.sized f) → (∃ r, name = lit "blake2" ++ r) →
      Digest lib name (f (some 32))
  | sized {f : Option Nat → Bytes → Bytes} : lib.attr name = some (.sized f) → (¬ ∃ r, name = lit "blake2" ++ r) →
      Digest lib name (f none)

theorem blake_iff (name : Str) : (lit "blake2").isPrefixOf name = true ↔ ∃ r, name = lit "blake2" ++ r := by
  rw [List.isPrefixOf_iff_prefix]
  exact ⟨fun ⟨r, h⟩ => ⟨r, h.symm⟩, fun ⟨r, h⟩ => ⟨r, h.symm⟩⟩

/-- The function of an algorithm is found if and only if the algorithm has one. -/
theorem C102_func (lib : Algorithms.Library) (name : Str) (f : Bytes → Bytes) :
    Algorithms.func lib name = .ok f ↔ Digest lib name f := by
  unfold Algorithms.func Algorithms.newHash Algorithms.digestSize
  constructor
  · intro h
    by_cases hb : (lit "blake2").isPrefixOf name = true
    · rw [if_pos hb] at h
      have hb' := (blake_iff name).1 hb
      split at h
      · cases h
      · simp at h
      · next g hg =>
        simp only [Option.getD_some] at h
        rw [if_pos (by decide)] at h
        cases h
        exact .blake hg hb'
      · cases h
    · rw [if_neg hb] at h
      have hb' := fun x => hb ((blake_iff name).2 x)
      split at h
      · cases h
      · next g hg =>
        simp only [Option.getD_none, ne_eq, not_true_eq_false, if_false] at h
        cases h
        exact .fixed hg hb'
      · next g hg =>
        simp only [Option.getD_none, ne_eq, not_true_eq_false, if_false] at h
        cases h
        exact .sized hg hb'
      · cases h
  · intro h
    cases h with
    | fixed hg hb => rw [if_neg (fun x => hb ((blake_iff name).1 x)), hg]; rfl
    | blake hg hb => rw [if_pos ((blake_iff name).2 hb), hg]; rfl
    | sized hg hb => rw [if_neg (fun x => hb ((blake_iff name).1 x)), hg]; rfl

/-- The answer of the server has every available algorithm and no other, in the order of the names. -/
theorem C102_listed (lib : Algorithms.Library) :
    (Algorithms.listed lib).Perm lib.available ∧ (Algorithms.listed lib).Pairwise (· ≤ ·) := by
  refine ⟨List.mergeSort_perm _ _, ?_⟩
  have h := List.pairwise_mergeSort (le := fun a b : Str => decide (a ≤ b))
    (by intro a b c h1 h2; simp only [decide_eq_true_eq] at *; exact List.le_trans h1 h2)
    (by intro a b; simp only [Bool.or_eq_true, decide_eq_true_eq]; exact List.le_total a b) lib.available
  exact h.imp (by intro a b h; simpa using h)

/-- A name that is not listed is refused before anything is looked at. -/
theorem C102_refused {σ : Type} (B : Backend σ) (a : Access) (lib : Algorithms.Library) {ticketId : Str}
    (query : List (Str × Str)) (es : List ZeroExtent) (s : σ) (c : Conn) {name : Str}
    (hq : queryGet query (lit "algorithm") = some name) (hn : name ∉ Algorithms.listed lib) :
    Algorithms.get B a lib ticketId query es s c = (.error (.http 400), s, c) := by
  have hn' : name ∉ lib.available := fun h => hn ((C102_listed lib).1.mem_iff.2 h)
  unfold Algorithms.get enumQuery
  rw [hq]
  simp only [hn', if_false]
  split <;> rfl

/-- With an algorithm that has a digest function, the request is the request of `C44` with this function. -/
theorem C102_served_partial {σ : Type} (B : Backend σ) (a : Access) (lib : Algorithms.Library) (ticketId : Str)
    (query : List (Str × Str)) (es : List ZeroExtent) (s : σ) (c : Conn) {name : Str} {f : Bytes → Bytes}
    (hq : Algorithm query lib.available name) (hf : Digest lib name f) (funcs : Str → Bytes → Bytes) (hfs : funcs name = f) :
    Algorithms.get B a lib ticketId query es s c =
      getChecksum B a lib.available funcs ticketId query es s c := by
  unfold Algorithms.get getChecksum
  rw [enumQuery_algorithm.2 hq]
  simp only [(C102_func lib name f).2 hf, hfs]
  rfl

/-- So the request gets the checksum of the content of the image, computed with the digest function of the algorithm, unless
the storage fails. -/
theorem C102_checksum_partial {σ : Type} {B : Backend σ} {L : Lawful B} {F : σ → Prop} (hr : FullReads L F)
    (hb : 4096 % B.blockSize = 0) {a : Access} {lib : Algorithms.Library} {ticketId : Str} {query : List (Str × Str)}
    {es : List ZeroExtent} {s : σ} {c : Conn} (hi : L.Inv s) (hF : F s) (hv : Valid (L.content s) (B.size s) es)
    (hsb : B.size s % B.blockSize = 0) (hm : ∀ k, k ≤ B.size s → ¬ L.mayFail k)
    (ht : ticketId ≠ []) (ha : a.auth = none) (href : a.refused = false) (hc : a.canceled = false)
    {name : Str} (hname : Algorithm query lib.available name) {f : Bytes → Bytes} (hf : Digest lib name f)
    {n : Nat} (hn : reqBlockSize query = .ok n) :
    ∃ s' c', Algorithms.get B a lib ticketId query es s c =
      (.ok (some ⟨name, n, blockChecksum f n (load (L.content s) 0 (B.size s))⟩), s', c') := by
  rw [C102_served_partial B a lib ticketId query es s c hname hf (fun _ => f) rfl]
  exact C44_served hr hb hi hF hv hsb hm ht ha href hc hname hn

/-- With an algorithm that has none, no request gets a checksum, and the backend is not used; the answer is an error of the
server (500) for a valid request. -/
theorem C102_unusable {σ : Type} (B : Backend σ) (a : Access) (lib : Algorithms.Library) (ticketId : Str)
    (query : List (Str × Str)) (es : List ZeroExtent) (s : σ) (c : Conn) {name : Str}
    (hq : Algorithm query lib.available name) (hf : ¬ ∃ f, Digest lib name f) :
    (∃ e, (Algorithms.get B a lib ticketId query es s c).1 = .error e) ∧
    (Algorithms.get B a lib ticketId query es s c).2.1 = s ∧
    (ticketId ≠ [] → (∃ n, reqBlockSize query = .ok n) → a.auth = none → a.refused = false → a.canceled = false →
      Algorithms.get B a lib ticketId query es s c = (.error .other, s, c)) := by
  have key : ∃ n, Algorithms.func lib name = .error (.exception n) := by
    cases h : Algorithms.func lib name with
    | ok f => exact absurd ⟨f, (C102_func lib name f).1 h⟩ hf
    | error e =>
      unfold Algorithms.func Algorithms.newHash at h
      split at h
      · cases h; exact ⟨_, rfl⟩
      · split at h
        · cases h; exact ⟨_, rfl⟩
        · cases h
      · split at h <;> cases h
      · cases h; exact ⟨_, rfl⟩
  obtain ⟨x, key⟩ := key
  unfold Algorithms.get
  rw [enumQuery_algorithm.2 hq]
  simp only [key, ticketRun]
  by_cases h1 : ticketId = []
  · simp [h1]
  · simp only [h1, if_false]
    cases h2 : reqBlockSize query with
    | error e => simp
    | ok n =>
      cases h3 : a.auth with
      | some e => cases e <;> simp
      | none =>
        cases h4 : a.refused <;> cases h5 : a.canceled <;> simp

/-- `hashlib` with `blake2b`, and with an algorithm of OpenSSL that is no attribute of the module, and one of variable
length (`checksum.py:18`). -/
def someHashlib : Algorithms.Library :=
  ⟨[lit "sm3", lit "shake_128", lit "blake2b", lit "sha1"], fun n =>
    if n = lit "blake2b" then some (.sized fun k b => b.take (k.getD 64))
    else if n = lit "sha1" then some (.fixed fun b => b.take 20)
    else if n = lit "shake_128" then some .lengthNeeded else none⟩

/-- Algorithms that the server lists, and cannot use: the request is answered with 500. -/
theorem C102_counterexample_listed {σ : Type} (B : Backend σ) (s : σ) (c : Conn) (es : List ZeroExtent) :
    ∀ name ∈ [lit "sm3", lit "shake_128"], name ∈ Algorithms.listed someHashlib ∧
      Algorithms.get B (authorized 1) someHashlib (lit "ticket") [(lit "algorithm", name)] es s c =
        (.error .other, s, c) := by
  intro name hn
  have hm : name ∈ someHashlib.available := by
    simp only [List.mem_cons, List.not_mem_nil, or_false] at hn
    rcases hn with rfl | rfl <;> decide
  have hq : Algorithm [(lit "algorithm", name)] someHashlib.available name := by
    refine enumQuery_algorithm.1 ?_
    have : queryGet [(lit "algorithm", name)] (lit "algorithm") = some name := by simp [queryGet]
    unfold enumQuery
    rw [this]
    simp [hm]
  refine ⟨(C102_listed _).1.mem_iff.2 hm, (C102_unusable B _ _ _ _ es s c hq ?_).2.2 (by decide) ⟨_, C44_block_size_default ?_⟩
    rfl rfl rfl⟩
  · rintro ⟨f, hf⟩
    rw [← C102_func] at hf
    simp only [List.mem_cons, List.not_mem_nil, or_false] at hn
    rcases hn with rfl | rfl <;> cases hf
  · have : lit "algorithm" ≠ lit "block_size" := by decide
    simp [queryGet, this]

/-- The tool for files uses 32 bytes for every algorithm if no length is given, so it works only with algorithms that take a
length: `sha1` fails, unlike in the server. -/
theorem C102_offline (lib : Algorithms.Library) (name : Str) :
    ((∃ f, Algorithms.offline lib (some name) none = .ok f) ↔ ∃ f, lib.attr name = some (.sized f)) ∧
    (∀ f, Digest lib name f → (¬ ∃ r, name = lit "blake2" ++ r) → Algorithms.offline lib (some name) (some none) = .ok f) ∧
    (∀ f, Digest lib name f → (∃ r, name = lit "blake2" ++ r) → Algorithms.offline lib (some name) none = .ok f) := by
  unfold Algorithms.offline Algorithms.newHash
  refine ⟨?_, ?_, ?_⟩
  · simp only [Option.getD_some, Option.getD_none]
    cases h : lib.attr name with
    | none => simp
    | some k => cases k <;> simp
  · intro f hf hb
    cases hf with
    | fixed hg _ => simp [hg]
    | blake hg h => exact absurd h hb
    | sized hg _ => simp [hg]
  · intro f hf hb
    cases hf with
    | fixed hg h => exact absurd hb h
    | blake hg _ => simp [hg]
    | sized hg h => exact absurd hb h

/-- `sha1` and `blake2b` have digest functions, `sha1` is listed and `md5` is not. -/
example : Digest someHashlib (lit "sha1") (fun b => b.take 20) ∧ Digest someHashlib (lit "blake2b") (fun b => b.take 32) ∧
    (¬ ∃ f, Algorithms.offline someHashlib (some (lit "sha1")) none = .ok f) ∧
    lit "sha1" ∈ Algorithms.listed someHashlib ∧ lit "md5" ∉ Algorithms.listed someHashlib :=
  ⟨(C102_func _ _ _).1 rfl, (C102_func _ _ _).1 rfl, (fun ⟨_, h⟩ => by cases h),
   (C102_listed _).1.mem_iff.2 (by decide), fun h => absurd ((C102_listed _).1.mem_iff.1 h) (by decide)⟩

/-- A request with `sha1` for an export of two bytes: the hypotheses of `C102_checksum_partial` hold, and the answer is the
checksum with `sha1`. -/
example : ∃ s' c', Algorithms.get (NbdBackend.backend 1) (authorized 2) someHashlib (lit "ticket")
    [(lit "algorithm", lit "sha1")] (plainZero 2) ⟨.rw, 1, [1, 7], [1, 7], 0, true, true, []⟩ (busy "0" []) =
      (.ok (some ⟨lit "sha1", 4 * 1024 * 1024, [1, 7]⟩), s', c') := by
  have hq : Algorithm [(lit "algorithm", lit "sha1")] someHashlib.available (lit "sha1") := enumQuery_algorithm.1 rfl
  obtain ⟨s', c', h⟩ := C102_checksum_partial (nbd_fullReads 1 (by decide) True 2 (fun _ => rfl))
    (by decide) (a := authorized 2) (lib := someHashlib) (ticketId := lit "ticket")
    (query := [(lit "algorithm", lit "sha1")]) (es := plainZero 2) (s := ⟨.rw, 1, [1, 7], [1, 7], 0, true, true, []⟩)
    (c := busy "0" []) ⟨rfl, rfl, rfl, fun _ => ⟨rfl, rfl, rfl⟩⟩ trivial
    (C22_plain_valid _ 2 (by decide)) (Nat.mod_one _)
    (by intro k hk; simp only [NbdBackend.lawful, not_or, Classical.not_not, Nat.not_lt]
        exact ⟨trivial, hk⟩)
    (by decide) rfl rfl rfl hq (.fixed (f := fun b => b.take 20) rfl (fun h => absurd ((blake_iff _).2 h) (by decide)))
    (n := 4 * 1024 * 1024) (C44_block_size_default rfl)
  refine ⟨s', c', h.trans ?_⟩
  have e : load ((NbdBackend.lawful 1 (by decide) True 2 (fun _ => rfl)).content
      ⟨.rw, 1, [1, 7], [1, 7], 0, true, true, []⟩) 0 2 = [1, 7] := rfl
  have e2 : blockChecksum (fun b => b.take 20) (4 * 1024 * 1024) [1, 7] = [1, 7] := by
    rw [blockChecksum, chunks_short (by simp) (by simp)]
    simp
  have e3 : (NbdBackend.backend 1).size ⟨.rw, 1, [1, 7], [1, 7], 0, true, true, []⟩ = 2 := rfl
  rw [e3, e, e2]

end Imageio.Props
