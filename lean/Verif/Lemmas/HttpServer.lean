import Verif.Model.HttpServer
import Verif.Lemmas.HttpParse

/-! Lemmas about request bodies, the router and the route tables. -/
namespace Imageio.Http
open Imageio.Spec

theorem not_space_of_digit {c : Char} (h : c.isDigit = true) : isPySpace c = false := by
  simp only [Char.isDigit, Bool.and_eq_true, decide_eq_true_eq] at h
  have h1 : 48 ≤ c.toNat := UInt32.le_iff_toNat_le.1 h.1
  have h2 : c.toNat ≤ 57 := UInt32.le_iff_toNat_le.1 h.2
  simp [isPySpace]
  omega

theorem pyStrip_digits {s : Str} (h : ∀ c ∈ s, c.isDigit = true) : pyStrip s = s := by
  have key : ∀ l : Str, (∀ c ∈ l, c.isDigit = true) → l.dropWhile isPySpace = l := by
    intro l hl
    cases l with
    | nil => rfl
    | cons c cs => simp [List.dropWhile, not_space_of_digit (hl c (by simp))]
  rw [pyStrip, key s h, key _ (by simpa using h), List.reverse_reverse]

theorem underscored_digits {s : Str} (h : ∀ c ∈ s, c.isDigit = true) (hne : s ≠ []) :
    underscored s = some s := by
  induction s with
  | nil => simp at hne
  | cons c cs ih =>
    cases cs with
    | nil => simp [underscored, h c (by simp)]
    | cons d ds =>
      have hd : d ≠ '_' := by
        rintro rfl
        have := h '_' (by simp)
        simp at this
      have hi := ih (fun x hx => h x (by simp [hx])) (by simp)
      rw [underscored]
      · simp [hi, h c (by simp)]
      · simp
      · simpa using hd

theorem pyInt_number {s : Str} {n : Nat} (h : Number s n) : pyInt s = some (n : Int) := by
  obtain ⟨hne, hd, rfl⟩ := number_iff.1 h
  rw [pyInt, pyStrip_digits hd]
  split
  · have := hd '-' (by simp); simp at this
  · have := hd '+' (by simp); simp at this
  · rw [underscored_digits hd hne]; rfl

/-- The header announces `n` bytes: what the lazy attribute can be. -/
theorem getContentLength_announced {r : Req} {n : Nat} (h : Announces r.header n)
    (hc : r.contentLength = none ∨ r.contentLength = some (r.header.map fun _ => n)) :
    r.getContentLength = (.ok (r.header.map fun _ => n),
      { r with contentLength := some (r.header.map fun _ => n) }) := by
  obtain ⟨hd, cl, len⟩ := r
  simp only at h hc
  rcases hc with rfl | rfl
  · rcases h with ⟨rfl, rfl⟩ | ⟨v, rfl, hv⟩
    · rfl
    · simp only [Req.getContentLength, pyInt_number hv, Option.map_some]
      rw [if_neg (by omega)]
      simp
  · rfl

/-- The state of the request after `m` bytes of the announced `n` were read. -/
structure Synced (rest0 : Bytes) (n m : Nat) (c : Conn) : Prop where
  announced : Announces c.req.header n
  rest : c.rest = rest0.drop m
  le : m ≤ n
  contentLength : c.req.contentLength = none ∨
    c.req.contentLength = some (c.req.header.map fun _ => n)
  length : (c.req.length = none ∧ m = 0) ∨
    c.req.length = some (c.req.header.map fun _ => n - m)

theorem Synced.getLength {rest0 : Bytes} {n m : Nat} {c : Conn} (h : Synced rest0 n m c) :
    ∃ req, c.req.getLength = (.ok (c.req.header.map fun _ => n - m), req) ∧
      req.header = c.req.header ∧
      (req.contentLength = none ∨ req.contentLength = some (c.req.header.map fun _ => n)) ∧
      req.length = some (c.req.header.map fun _ => n - m) := by
  rcases h.length with ⟨h1, h2⟩ | h1
  · have := getContentLength_announced h.announced h.contentLength
    refine ⟨{ c.req with contentLength := some (c.req.header.map fun _ => n),
                         length := some (c.req.header.map fun _ => n) }, ?_, rfl, .inr rfl, ?_⟩
    · simp [Req.getLength, h1, this, h2]
    · simp [h2]
  · exact ⟨c.req, by simp [Req.getLength, h1], rfl, h.contentLength, h1⟩

theorem Synced.header_none {rest0 : Bytes} {n m : Nat} {c : Conn} (h : Synced rest0 n m c)
    (hn : c.req.header = none) : n = 0 := by
  rcases h.announced with ⟨_, h⟩ | ⟨v, hv, _⟩
  · exact h
  · simp [hn] at hv

theorem drop_len_take (l : Bytes) (k : Nat) : l.drop k = l.drop (l.take k).length := by
  rw [List.length_take]
  by_cases h : k ≤ l.length
  · rw [Nat.min_eq_left h]
  · rw [List.drop_of_length_le (by omega), List.drop_of_length_le (by omega)]

/-- The parts of a connection that reading the body does not touch. -/
structure SameResp (c c' : Conn) : Prop where
  status : c'.status = c.status
  started : c'.started = c.started
  closing : c'.closing = c.closing
  sent : c'.sent = c.sent
  writes : c'.writes = c.writes
  header : c'.req.header = c.req.header
  recvs : ∀ k, Recv.fails k ∈ c'.recvs → Recv.fails k ∈ c.recvs

/-- The outcome of one read of the body, `sz` is the requested size: the data are the
following bytes, and the read stays inside the body. -/
inductive ReadPost (rest0 : Bytes) (n m : Nat) (sz : Option Nat) (c : Conn) :
    Except HErr Bytes → Conn → Prop
  | data (k : Nat) (c' : Conn) (hk : m + k ≤ n) (hk2 : k = 0 ∨ m + k ≤ rest0.length)
      (synced : Synced rest0 n (m + k) c') (same : SameResp c c')
      (empty : k = 0 → m = n ∨ rest0.length ≤ m ∨ sz = some 0)
      (le : ∀ j, sz = some j → k ≤ j) (all : sz = none → k = min (n - m) (rest0.length - m)) :
      ReadPost rest0 n m sz c (.ok ((rest0.drop m).take k)) c'
  | fail (k v : Nat) (c' : Conn) (hk : m + k ≤ n) (rest : c'.rest = rest0.drop (m + k))
      (same : SameResp c c') (hv : 0 < v) (len : c'.req.length = some (some v))
      (hf : ∃ j, Recv.fails j ∈ c.recvs) :
      ReadPost rest0 n m sz c (.error .socket) c'

theorem recv_fails {c : Conn} {q k : Nat} (h : c.recv q = .fails k) : Recv.fails k ∈ c.recvs := by
  unfold Conn.recv at h
  cases hr : c.recvs with
  | nil => simp [hr] at h
  | cons o os => simp [hr] at h; simp [h]

theorem Synced.readCore {rest0 : Bytes} {n m : Nat} {c : Conn} (h : Synced rest0 n m c)
    {v : Str} (hd : c.req.header = some v) {req : Req} (hh : req.header = c.req.header)
    (hcl : req.contentLength = none ∨ req.contentLength = some (c.req.header.map fun _ => n))
    (sz : Option Nat) (q : Nat) (hq : q ≤ n - m) (hq0 : q = 0 → m = n ∨ sz = some 0)
    (hqle : ∀ j, sz = some j → q ≤ j) (hall : sz = none → q = n - m) (rs : List Recv)
    (hrs : ∀ k, Recv.fails k ∈ rs → Recv.fails k ∈ c.recvs) :
    ReadPost rest0 n m sz c (.ok (c.rest.take q))
      { c with req := { req with length := some (some (n - m - (c.rest.take q).length)) },
               rest := c.rest.drop q, recvs := rs } := by
  have hlen : (c.rest.take q).length = min q (rest0.length - m) := by
    rw [List.length_take, h.rest, List.length_drop]
  have e : c.rest.take q = (rest0.drop m).take (min q (rest0.length - m)) := by
    rw [h.rest, ← List.length_drop, List.take_eq_take_min]
  have hle := h.le
  rw [hlen]
  conv => arg 6; rw [e]
  refine .data (min q (rest0.length - m)) _ (by omega) (by omega) ?_
    ⟨rfl, rfl, rfl, rfl, rfl, hh, hrs⟩ (fun h0 => ?_) (fun j hj => ?_)
    (fun hn => by rw [hall hn])
  · refine ⟨?_, ?_, by omega, ?_, .inr ?_⟩
    · simp only [hh]; exact h.announced
    · simp only
      rw [h.rest, List.drop_drop]
      by_cases hc : q ≤ rest0.length - m
      · rw [Nat.min_eq_left hc]
      · rw [List.drop_of_length_le (by omega), List.drop_of_length_le (by omega)]
    · simp only [hh]; exact hcl
    · simp only [hh, hd, Option.map_some]
      congr 2
      omega
  · by_cases hq' : q = 0
    · rcases hq0 hq' with h' | h'
      · exact .inl h'
      · exact .inr (.inr h')
    · exact .inr (.inl (by omega))
  · have := hqle j hj
    omega

theorem Synced.failCore {rest0 : Bytes} {n m : Nat} {c : Conn} (h : Synced rest0 n m c)
    {v : Str} (hd : c.req.header = some v) {req : Req} (hh : req.header = c.req.header)
    (hl : req.length = some (c.req.header.map fun _ => n - m))
    (sz : Option Nat) (q k : Nat) (hq : q ≤ n - m) (hne : n - m ≠ 0) (rs : List Recv)
    (hrs : ∀ k, Recv.fails k ∈ rs → Recv.fails k ∈ c.recvs)
    (hf : ∃ j, Recv.fails j ∈ c.recvs) :
    ReadPost rest0 n m sz c (.error .socket)
      { c with req := req, rest := c.rest.drop (min q k), recvs := rs } := by
  refine .fail (min q k) (n - m) _ (by omega) ?_ ⟨rfl, rfl, rfl, rfl, rfl, hh, hrs⟩ (by omega) ?_ hf
  · simp only
    rw [h.rest, List.drop_drop]
  · simp [hl, hd]

theorem tail_fails {rs : List Recv} : ∀ k, Recv.fails k ∈ rs.tail → Recv.fails k ∈ rs := by
  intro k hk
  exact List.mem_of_mem_tail hk

theorem Synced.read {rest0 : Bytes} {n m : Nat} {c : Conn} (h : Synced rest0 n m c)
    (sz : Option Nat) : ReadPost rest0 n m sz c (c.read sz).1 (c.read sz).2 := by
  obtain ⟨req, hg, hh, hcl, hl⟩ := h.getLength
  have hle := h.le
  unfold Conn.read
  rw [hg]
  have done : m = n ∨ c.req.header = none → ReadPost rest0 n m sz c (.ok []) { c with req } := by
    intro hm
    have hmn : m = n := by
      rcases hm with hm | hm
      · exact hm
      · have := h.header_none hm; omega
    have : ([] : Bytes) = (rest0.drop m).take 0 := rfl
    rw [this]
    refine .data 0 _ (by omega) (.inl rfl) ⟨?_, h.rest, by omega, ?_, .inr ?_⟩
      ⟨rfl, rfl, rfl, rfl, rfl, hh, fun _ h => h⟩ (fun _ => .inl hmn) (by simp) (by omega)
    · simp only [hh]; exact h.announced
    · simp only [hh]; exact hcl
    · simp only [hh, hl]; simp
  cases hd : c.req.header with
  | none => exact done (.inr hd)
  | some v =>
    simp only [Option.map_some]
    split
    next h0 => exact done (.inl (by omega))
    next h0 =>
      generalize hq : readSize sz (n - m) = q
      have hq1 : q ≤ n - m := by subst hq; unfold readSize; split <;> (try split) <;> omega
      have hq2 : q = 0 → m = n ∨ sz = some 0 := by
        intro h1
        subst hq
        unfold readSize at h1
        split at h1
        · omega
        · split at h1
          · omega
          · subst h1; exact .inr rfl
      have hq3 : ∀ j, sz = some j → q ≤ j := by
        intro j hj; subst hq hj; simp only [readSize]; split <;> omega
      have hq4 : sz = none → q = n - m := by
        intro hn; subst hq hn; rfl
      cases ho : c.recv q with
      | got k =>
        simp only [rfileRead]
        exact h.readCore hd hh hcl sz q hq1 hq2 hq3 hq4 _ tail_fails
      | fails k =>
        simp only [rfileRead]
        exact h.failCore hd hh hl sz q k hq1 h0 _ tail_fails ⟨k, recv_fails ho⟩

theorem Synced.readinto {rest0 : Bytes} {n m : Nat} {c : Conn} (h : Synced rest0 n m c)
    (sz : Nat) : ReadPost rest0 n m (some sz) c (c.readinto sz).1 (c.readinto sz).2 := by
  obtain ⟨req, hg, hh, hcl, hl⟩ := h.getLength
  have hle := h.le
  unfold Conn.readinto
  rw [hg]
  have done : m = n ∨ c.req.header = none →
      ReadPost rest0 n m (some sz) c (.ok []) { c with req } := by
    intro hm
    have hmn : m = n := by
      rcases hm with hm | hm
      · exact hm
      · have := h.header_none hm; omega
    have : ([] : Bytes) = (rest0.drop m).take 0 := rfl
    rw [this]
    refine .data 0 _ (by omega) (.inl rfl) ⟨?_, h.rest, by omega, ?_, .inr ?_⟩
      ⟨rfl, rfl, rfl, rfl, rfl, hh, fun _ h => h⟩ (fun _ => .inl hmn) (by simp) (by omega)
    · simp only [hh]; exact h.announced
    · simp only [hh]; exact hcl
    · simp only [hh, hl]; simp
  cases hd : c.req.header with
  | none => exact done (.inr hd)
  | some v =>
    simp only [Option.map_some]
    split
    next h0 => exact done (.inl (by omega))
    next h0 =>
      cases ho : c.recv sz with
      | got k =>
        simp only [rfileReadinto]
        refine h.readCore hd hh hcl (some sz) (min (min sz (n - m)) (k + 1)) (by omega) ?_ ?_ (by simp) _
          tail_fails
        · intro h1; right; congr 1; omega
        · intro j hj; simp only [Option.some.injEq] at hj; omega
      | fails k =>
        simp only [rfileReadinto]
        exact h.failCore hd hh hl (some sz) (min sz (n - m)) k (by omega) h0 _ tail_fails
          ⟨k, recv_fails ho⟩


/-- A handler that does not go on after a failing read: the exception (this one or
another one) leaves the handler. -/
inductive Propagates : Prog → Prop
  | ret : Propagates .ret
  | raise (e) : Propagates (.raise e)
  | contentLength {k} (h : ∀ r, Propagates (k r)) : Propagates (.contentLength k)
  | read {n k} (h : ∀ r, Propagates (k r)) (hs : ∃ e, k (.error .socket) = .raise e) :
      Propagates (.read n k)
  | readinto {n k} (h : ∀ r, Propagates (k r)) (hs : ∃ e, k (.error .socket) = .raise e) :
      Propagates (.readinto n k)
  | setStatus {code k} (h : Propagates k) : Propagates (.setStatus code k)
  | write {data k} (h : ∀ r, Propagates (k r)) : Propagates (.write data k)
  | close {k} (h : Propagates k) : Propagates (.close k)

theorem Synced.congr {rest0 : Bytes} {n m : Nat} {c c' : Conn} (h : Synced rest0 n m c)
    (h1 : c'.req = c.req) (h2 : c'.rest = c.rest) : Synced rest0 n m c' := by
  obtain ⟨a, b, d, e, f⟩ := h
  exact ⟨by rw [h1]; exact a, by rw [h2]; exact b, d, by rw [h1]; exact e, by rw [h1]; exact f⟩

theorem Synced.contentLength_step {rest0 : Bytes} {n m : Nat} {c : Conn}
    (h : Synced rest0 n m c) :
    Synced rest0 n m { c with req := c.req.getContentLength.2 } := by
  have := getContentLength_announced h.announced h.contentLength
  rw [this]
  exact ⟨h.announced, h.rest, h.le, .inr rfl, h.length⟩

/-- What a handler leaves behind: the body read up to some point, or an exception with
unread data announced. -/
inductive RunPost (rest0 : Bytes) (n : Nat) : Except HErr Unit → Conn → Prop
  | synced {r c'} (m : Nat) (h : Synced rest0 n m c') : RunPost rest0 n r c'
  | broken {c'} (e : HErr) (v : Nat) (hv : 0 < v) (h : c'.req.length = some (some v)) :
      RunPost rest0 n (.error e) c'

theorem run_post {p : Prog} (hp : Propagates p) {rest0 : Bytes} {n m : Nat} {c : Conn}
    (h : Synced rest0 n m c) : RunPost rest0 n (p.run c).1 (p.run c).2 := by
  induction hp generalizing m c with
  | ret => exact .synced m h
  | raise e => exact .synced m h
  | contentLength _ ih => exact ih _ h.contentLength_step
  | @read q k hk hs ih =>
    simp only [Prog.run]
    obtain ⟨e, he⟩ := hs
    have hr := h.read q
    generalize c.read _ = x at hr
    obtain ⟨r, c'⟩ := x
    simp only at hr
    cases hr with
    | data k _ _ _ hsy _ _ _ _ => exact ih _ hsy
    | fail k v _ _ _ _ hv hl _ => simp only [he]; exact .broken e v hv hl
  | @readinto q k hk hs ih =>
    simp only [Prog.run]
    obtain ⟨e, he⟩ := hs
    have hr := h.readinto q
    generalize c.readinto _ = x at hr
    obtain ⟨r, c'⟩ := x
    simp only at hr
    cases hr with
    | data k _ _ _ hsy _ _ _ _ => exact ih _ hsy
    | fail k v _ _ _ _ hv hl _ => simp only [he]; exact .broken e v hv hl
  | setStatus _ ih => exact ih (h.congr rfl rfl)
  | write _ ih =>
    simp only [Prog.run]
    exact ih _ (h.congr (by unfold Conn.write; simp only; split <;> rfl)
      (by unfold Conn.write; simp only; split <;> rfl))
  | close _ ih => exact ih (h.congr rfl rfl)

theorem write_frame (c : Conn) (d : Bytes) :
    (c.write d).2.req = c.req ∧ (c.write d).2.rest = c.rest ∧
    (c.write d).2.closing = c.closing ∧ (c.write d).2.started = true := by
  unfold Conn.write; simp only; split <;> exact ⟨rfl, rfl, rfl, rfl⟩

theorem sendError_frame (c : Conn) (code : Nat) :
    (c.sendError code).2.req = c.req ∧ (c.sendError code).2.rest = c.rest ∧
    (c.sendError code).2.closing = c.closing := by
  unfold Conn.sendError
  split
  · exact ⟨rfl, rfl, rfl⟩
  · have := write_frame { c with status := code } []
    exact ⟨this.1, this.2.1, this.2.2.1⟩

/-- The error path keeps the connection only when the body was read completely. -/
theorem handleError_sync {rest0 : Bytes} {n : Nat} (lost : Bool) (e : HErr) {c : Conn}
    (h : RunPost rest0 n (.error e) c) (hc : (handleError lost e c).2.closing = false) :
    (handleError lost e c).2.rest = rest0.drop n := by
  unfold handleError at hc ⊢
  split at hc
  · simp [Conn.close] at hc
  split at hc
  · simp [Conn.close] at hc
  next h1 h2 =>
  rw [if_neg h1, if_neg h2]
  cases h with
  | broken _ v hv hl =>
    simp only [Req.getLength, hl, hv, ite_true, (sendError_frame _ _).2.2, Conn.close] at hc
    simp at hc
  | synced m h =>
    obtain ⟨req, hg, hh, hcl, hl⟩ := h.getLength
    rw [hg] at hc ⊢
    have hle := h.le
    simp only [(sendError_frame _ _).2.2, (sendError_frame _ _).2.1] at hc ⊢
    cases hd : c.req.header with
    | none =>
      have := h.header_none hd
      simp only [Option.map_none]
      rw [h.rest]
      congr 1
      omega
    | some v =>
      simp only [hd, Option.map_some] at hc ⊢
      split at hc
      · simp [Conn.close] at hc
      next hz =>
        rw [if_neg hz]
        rw [h.rest]
        congr 1
        omega

/-! ## One response -/

/-- The response header was sent at most once, and not before the response started. -/
structure OneHeader (c : Conn) : Prop where
  fresh : c.started = false → c.sent = []
  one : c.sent.length ≤ 1

/-- No write fails, and a started response was sent. -/
structure AllSent (c : Conn) : Prop where
  ok : ∀ b ∈ c.writes, b = true
  sent : c.started = true → c.sent.length = 1

theorem OneHeader.write {c : Conn} (h : OneHeader c) (d : Bytes) :
    OneHeader (c.write d).2 := by
  obtain ⟨h1, h2⟩ := h
  unfold Conn.write
  simp only
  split
  · refine ⟨by simp, ?_⟩
    simp only
    split
    · exact h2
    · next hs => simp [h1 (by simpa using hs)]
  · exact ⟨by simp, h2⟩

theorem AllSent.write_ok {c : Conn} (h : AllSent c) (d : Bytes) : (c.write d).1 = .ok () := by
  have : c.writes.headD true = true := by
    cases hw : c.writes with
    | nil => rfl
    | cons b bs => exact h.ok b (by simp [hw])
  unfold Conn.write
  rw [if_pos this]

theorem AllSent.write {c : Conn} (h : AllSent c) (h1 : OneHeader c) (d : Bytes) :
    AllSent (c.write d).2 := by
  have hh : c.writes.headD true = true := by
    cases hw : c.writes with
    | nil => rfl
    | cons b bs => exact h.ok b (by simp [hw])
  unfold Conn.write
  rw [if_pos hh]
  refine ⟨fun b hb => h.ok b (List.mem_of_mem_tail hb), fun _ => ?_⟩
  simp only
  split
  · next hs => exact h.sent hs
  · next hs => simp [h1.fresh (by simpa using hs)]

theorem read_same (c : Conn) (q : Option Nat) :
    (c.read q).2.started = c.started ∧ (c.read q).2.sent = c.sent ∧
    (c.read q).2.writes = c.writes := by
  unfold Conn.read
  split
  · exact ⟨rfl, rfl, rfl⟩
  · exact ⟨rfl, rfl, rfl⟩
  · split
    · exact ⟨rfl, rfl, rfl⟩
    · simp only
      split <;> exact ⟨rfl, rfl, rfl⟩

theorem readinto_same (c : Conn) (q : Nat) :
    (c.readinto q).2.started = c.started ∧ (c.readinto q).2.sent = c.sent ∧
    (c.readinto q).2.writes = c.writes := by
  unfold Conn.readinto
  split
  · exact ⟨rfl, rfl, rfl⟩
  · exact ⟨rfl, rfl, rfl⟩
  · split
    · exact ⟨rfl, rfl, rfl⟩
    · split <;> exact ⟨rfl, rfl, rfl⟩

theorem OneHeader.congr {c c' : Conn} (h : OneHeader c) (h1 : c'.started = c.started)
    (h2 : c'.sent = c.sent) : OneHeader c' :=
  ⟨fun hs => by rw [h2]; exact h.fresh (h1 ▸ hs), by rw [h2]; exact h.one⟩

theorem AllSent.congr {c c' : Conn} (h : AllSent c) (h1 : c'.started = c.started)
    (h2 : c'.sent = c.sent) (h3 : c'.writes = c.writes) : AllSent c' :=
  ⟨by rw [h3]; exact h.ok, fun hs => by rw [h2]; exact h.sent (h1 ▸ hs)⟩

theorem run_oneHeader (p : Prog) {c : Conn} (h : OneHeader c) : OneHeader (p.run c).2 := by
  induction p generalizing c with
  | ret => exact h
  | raise e => exact h
  | contentLength k ih => exact ih _ (h.congr rfl rfl)
  | read n k ih => exact ih _ (h.congr (read_same c n).1 (read_same c n).2.1)
  | readinto n k ih => exact ih _ (h.congr (readinto_same c n).1 (readinto_same c n).2.1)
  | setStatus code k ih => exact ih (h.congr rfl rfl)
  | write d k ih => exact ih _ (h.write d)
  | close k ih => exact ih (h.congr rfl rfl)

theorem run_allSent (p : Prog) {c : Conn} (h1 : OneHeader c) (h : AllSent c) :
    AllSent (p.run c).2 := by
  induction p generalizing c with
  | ret => exact h
  | raise e => exact h
  | contentLength k ih => exact ih _ (h1.congr rfl rfl) (h.congr rfl rfl rfl)
  | read n k ih =>
    obtain ⟨a, b, d⟩ := read_same c n
    exact ih _ (h1.congr a b) (h.congr a b d)
  | readinto n k ih =>
    obtain ⟨a, b, d⟩ := readinto_same c n
    exact ih _ (h1.congr a b) (h.congr a b d)
  | setStatus code k ih => exact ih (h1.congr rfl rfl) (h.congr rfl rfl rfl)
  | write d k ih => exact ih _ (h1.write d) (h.write h1 d)
  | close k ih => exact ih (h1.congr rfl rfl) (h.congr rfl rfl rfl)

theorem sendError_oneHeader {c : Conn} (h : OneHeader c) (code : Nat) :
    OneHeader (c.sendError code).2 := by
  unfold Conn.sendError
  split
  · exact h
  · exact OneHeader.write (c := { c with status := code }) (h.congr rfl rfl) []

theorem handleError_oneHeader (lost : Bool) (e : HErr) {c : Conn} (h : OneHeader c) :
    OneHeader (handleError lost e c).2 := by
  unfold handleError
  split
  · exact h.congr rfl rfl
  split
  · exact h.congr rfl rfl
  split
  · exact h.congr rfl rfl
  · refine sendError_oneHeader ?_ _
    split
    · split
      · exact h.congr rfl rfl
      · exact h.congr rfl rfl
    · exact h.congr rfl rfl

/-- The error path sends the status, when the content length is valid and the socket
works. -/
theorem handleError_sends (e : HErr) {c : Conn} (h1 : OneHeader c) (h : AllSent c)
    (hs : c.started = false) {len : Option Nat} {req : Req}
    (hl : c.req.getLength = (.ok len, req)) :
    (handleError false e c).2.sent = [errorCode e] ∧
      (handleError false e c).1 = .ok () := by
  have hf : c.sent = [] := h1.fresh hs
  have hh : c.writes.head?.getD true = true := by
    cases hw : c.writes with
    | nil => rfl
    | cons b bs => exact h.ok b (by simp [hw])
  unfold handleError
  rw [hl]
  cases len with
  | none => simp [hs, Conn.sendError, Conn.write, hh, hf]
  | some v =>
    by_cases hv : v > 0 <;> simp [hs, Conn.sendError, Conn.write, hh, hf, hv, Conn.close]

/-! ## Routes -/

theorem findRoute_skip (method path : Str) (pre post : List Route)
    (h : ∀ r ∈ pre, r.pattern path = none) :
    findRoute method path (pre ++ post) = findRoute method path post := by
  induction pre with
  | nil => rfl
  | cons r rs ih =>
    simp only [List.cons_append, findRoute, h r (by simp)]
    exact ih fun r hr => h r (by simp [hr])

theorem greedyUntil_append {lit : Str} (hl : lit.head? = some '/') (id t : Str)
    (h1 : '/' ∉ id) (h2 : '\n' ∉ id) :
    greedyUntil lit (id ++ t) = (greedyUntil lit t).map (id ++ ·) := by
  induction id with
  | nil => simp
  | cons c cs ih =>
    simp only [List.mem_cons, not_or] at h1 h2
    have h0 := ih h1.2 h2.2
    cases lit with
    | nil => simp at hl
    | cons l ls =>
      simp only [List.head?_cons, Option.some.injEq] at hl
      subst hl
      simp only [List.cons_append, greedyUntil, if_neg (Ne.symm h2.1), h0, dropLit,
        if_neg h1.1, Option.isSome_none]
      cases greedyUntil ('/' :: ls) t <;> simp

theorem greedyUntil_all (s : Str) (h : '\n' ∉ s) : greedyUntil [] s = some s := by
  induction s with
  | nil => rfl
  | cons c cs ih =>
    simp only [List.mem_cons, not_or] at h
    simp [greedyUntil, if_neg (Ne.symm h.1), ih h.2]

end Imageio.Http
