import Verif.Spec.Stats

/-!
Lemmas about the statistics clock.
-/
namespace Imageio.Stats
open Http Spec.Stats

/-! ### The dictionary -/

theorem find_update {f : Stat → Stat} (hf : ∀ s, (f s).name = s.name) (m n : Str) : ∀ c : Clock,
    find (update c m f) n = if n = m then (find c n).map f else find c n
  | [] => by unfold find update; simp
  | s :: c => by
    have ih := find_update hf m n c
    unfold find update at ih ⊢
    simp only [List.map_cons, List.find?_cons]
    by_cases h1 : s.name = m
    · simp only [h1, if_true, hf]
      by_cases h2 : n = m
      · subst h2; simp
      · have h3 : ¬ m = n := fun h => h2 h.symm
        simp only [h3, decide_false, if_neg h2] at ih ⊢
        exact ih
    · simp only [h1, if_false]
      by_cases h2 : s.name = n
      · have h3 : ¬ n = m := fun h => h1 (h2.trans h)
        simp [h2, h3]
      · simp only [h2, decide_false]
        exact ih

theorem find_append (c : Clock) (s : Stat) (n : Str) :
    find (c ++ [s]) n = (find c n).or (if s.name = n then some s else none) := by
  unfold find
  rw [List.find?_append]
  congr 1
  by_cases h : s.name = n <;> simp [h]

/-- The names, in order. -/
def names (c : Clock) : List Str := c.map (·.name)

theorem names_update {f : Stat → Stat} (hf : ∀ s, (f s).name = s.name) (c : Clock) (m : Str) :
    names (update c m f) = names c := by
  unfold names update
  rw [List.map_map]
  congr 1
  funext s
  simp only [Function.comp]
  split
  · exact hf s
  · rfl

theorem find_isSome (c : Clock) (n : Str) : (find c n).isSome = true ↔ n ∈ names c := by
  unfold find names
  simp

theorem find_name {c : Clock} {n : Str} {s : Stat} (h : find c n = some s) : s.name = n := by
  have := List.find?_some h
  simpa using this

def secs (c : Clock) (n : Str) : Int := ((find c n).map (·.seconds)).getD 0
def opsOf (c : Clock) (n : Str) : Nat := ((find c n).map (·.ops)).getD 0
def bytesOf (c : Clock) (n : Str) : Nat := ((find c n).map (·.bytes)).getD 0
def startedOf (c : Clock) (n : Str) : Option Int := (find c n).bind (·.started)

/-! ### The journal -/

theorem seconds_append (n : Str) : ∀ l k, seconds n (l ++ k) = seconds n l + seconds n k
  | [], k => by simp [seconds]
  | e :: l, k => by
    have := seconds_append n l k
    cases e <;> simp only [List.cons_append, seconds, this] <;> omega

theorem ops_append (n : Str) : ∀ l k, ops n (l ++ k) = ops n l + ops n k
  | [], k => by simp [ops]
  | e :: l, k => by
    have := ops_append n l k
    cases e <;> simp only [List.cons_append, ops, this] <;> omega

theorem bytes_append (n : Str) : ∀ l k, bytes n (l ++ k) = bytes n l + bytes n k
  | [], k => by simp [bytes]
  | e :: l, k => by
    have := bytes_append n l k
    cases e <;> simp only [List.cons_append, bytes, this] <;> omega

theorem order_append : ∀ (l k : List Entry) (ns : List Str), order ns (l ++ k) = order (order ns l) k
  | [], _, _ => rfl
  | e :: l, k, ns => by
    cases e <;> simp only [List.cons_append, order] <;> exact order_append l k _

/-- The clock after the entries of the journal. -/
structure Agrees (c c' : Clock) (log : List Entry) : Prop where
  seconds : ∀ n, secs c' n = secs c n + seconds n log
  ops : ∀ n, opsOf c' n = opsOf c n + ops n log
  bytes : ∀ n, bytesOf c' n = bytesOf c n + bytes n log
  started : ∀ n, startedOf c' n = startedOf c n
  names : names c' = order (names c) log

theorem Agrees.refl (c : Clock) : Agrees c c [] :=
  ⟨fun _ => by simp [Spec.Stats.seconds], fun _ => by simp [Spec.Stats.ops],
    fun _ => by simp [Spec.Stats.bytes], fun _ => rfl, rfl⟩

theorem Agrees.trans {a b c : Clock} {l k : List Entry} (h : Agrees a b l) (g : Agrees b c k) :
    Agrees a c (l ++ k) :=
  ⟨fun n => by rw [g.seconds, h.seconds, seconds_append]; omega,
    fun n => by rw [g.ops, h.ops, ops_append]; omega,
    fun n => by rw [g.bytes, h.bytes, bytes_append]; omega,
    fun n => by rw [g.started, h.started], by rw [g.names, h.names, order_append]⟩

theorem start_spec {c : Clock} {name : Str} {t : Int} (h : startedOf c name = none) :
    ∃ c', start c name t = .ok c' ∧ startedOf c' name = some t ∧
      (∀ n, n ≠ name → startedOf c' n = startedOf c n) ∧
      (∀ n, secs c' n = secs c n) ∧ (∀ n, opsOf c' n = opsOf c n) ∧
      (∀ n, bytesOf c' n = bytesOf c n) ∧
      Stats.names c' = order (Stats.names c) [.began name] := by
  have hf : ∀ s : Stat, ({ s with started := some t } : Stat).name = s.name := fun _ => rfl
  by_cases hx : (find c name).isSome = true
  · obtain ⟨s, hs⟩ := Option.isSome_iff_exists.1 hx
    have hn : s.started = none := by
      unfold startedOf at h
      rw [hs] at h
      exact h
    refine ⟨update c name fun s => { s with started := some t }, ?_, ?_, ?_, ?_, ?_, ?_, ?_⟩
    · unfold start
      rw [if_pos hx]
      simp only [hs, hn]
      rfl
    · unfold startedOf
      rw [find_update hf, if_pos rfl, hs]
      rfl
    · intro n hne
      unfold startedOf
      rw [find_update hf, if_neg hne]
    · intro n
      unfold secs
      rw [find_update hf]
      split
      · simp [Function.comp_def]
      · rfl
    · intro n
      unfold opsOf
      rw [find_update hf]
      split
      · simp [Function.comp_def]
      · rfl
    · intro n
      unfold bytesOf
      rw [find_update hf]
      split
      · simp [Function.comp_def]
      · rfl
    · rw [names_update hf]
      simp only [order]
      rw [if_pos ((find_isSome c name).1 hx)]
  · have hnone : find c name = none := by simpa using hx
    have hfa : ∀ n, find (c ++ [{ name }]) n = if n = name then some { name } else find c n := by
      intro n
      rw [find_append]
      by_cases hn : n = name
      · subst hn
        simp [hnone]
      · rw [if_neg hn, if_neg (fun h => hn h.symm)]
        simp
    refine ⟨update (c ++ [{ name }]) name fun s => { s with started := some t }, ?_, ?_, ?_, ?_, ?_,
      ?_, ?_⟩
    · unfold start
      rw [if_neg hx]
      simp only [hfa, if_true]
      rfl
    · unfold startedOf
      rw [find_update hf, if_pos rfl, hfa, if_pos rfl]
      rfl
    · intro n hne
      unfold startedOf
      rw [find_update hf, if_neg hne, hfa, if_neg hne]
    · intro n
      unfold secs
      rw [find_update hf, hfa]
      by_cases hn : n = name
      · subst hn; simp [hnone]
      · simp [hn]
    · intro n
      unfold opsOf
      rw [find_update hf, hfa]
      by_cases hn : n = name
      · subst hn; simp [hnone]
      · simp [hn]
    · intro n
      unfold bytesOf
      rw [find_update hf, hfa]
      by_cases hn : n = name
      · subst hn; simp [hnone]
      · simp [hn]
    · rw [names_update hf]
      simp only [order]
      rw [if_neg (fun h => hx ((find_isSome c name).2 h))]
      simp [Stats.names]

theorem stopStat_spec {c : Clock} {name : Str} {t0 t : Int} (completed : Bool)
    (h : startedOf c name = some t0) :
    ∃ c', stopStat c name completed t = .ok c' ∧ startedOf c' name = none ∧
      (∀ n, n ≠ name → startedOf c' n = startedOf c n) ∧
      (∀ n, secs c' n = secs c n + seconds n [.ended name t0 t completed]) ∧
      (∀ n, opsOf c' n = opsOf c n + ops n [.ended name t0 t completed]) ∧
      (∀ n, bytesOf c' n = bytesOf c n) ∧ Stats.names c' = Stats.names c := by
  obtain ⟨s, hs, hst⟩ := Option.bind_eq_some_iff.1 h
  have hf : ∀ s : Stat, ({ s with seconds := s.seconds + (t - t0), started := none, ops := if completed then s.ops + 1 else s.ops } : Stat).name = s.name := fun _ => rfl
  refine ⟨update c name fun s => { s with seconds := s.seconds + (t - t0), started := none, ops := if completed then s.ops + 1 else s.ops }, ?_, ?_, ?_, ?_, ?_, ?_, ?_⟩
  · unfold stopStat
    simp only [hs, hst]
  · unfold startedOf
    rw [find_update hf, if_pos rfl, hs]
    rfl
  · intro n hne
    unfold startedOf
    rw [find_update hf, if_neg hne]
  · intro n
    unfold secs
    rw [find_update hf]
    by_cases hn : n = name
    · subst hn; simp [hs, seconds]
    · have : ¬ name = n := fun h => hn h.symm
      simp [hn, this, seconds]
  · intro n
    unfold opsOf
    rw [find_update hf]
    by_cases hn : n = name
    · subst hn; cases completed <;> simp [hs, ops]
    · have : ¬ name = n := fun h => hn h.symm
      simp [hn, this, ops]
  · intro n
    unfold bytesOf
    rw [find_update hf]
    split
    · simp [Function.comp_def]
    · rfl
  · rw [names_update hf]

theorem addBytes_agrees {c : Clock} {name : Str} {k : Nat} (h : (startedOf c name).isSome = true) :
    Agrees c (addBytes c name k) [.counted name k] := by
  have hf : ∀ s : Stat, ({ s with bytes := s.bytes + k } : Stat).name = s.name := fun _ => rfl
  obtain ⟨t, ht⟩ := Option.isSome_iff_exists.1 h
  obtain ⟨s, hs, _⟩ := Option.bind_eq_some_iff.1 ht
  unfold addBytes
  refine ⟨?_, ?_, ?_, ?_, ?_⟩
  · intro n
    unfold secs
    rw [find_update hf]
    split <;> simp [Function.comp_def, seconds]
  · intro n
    unfold opsOf
    rw [find_update hf]
    split <;> simp [Function.comp_def, ops]
  · intro n
    unfold bytesOf
    rw [find_update hf]
    by_cases hn : n = name
    · subst hn; simp [hs, bytes]
    · have : ¬ name = n := fun h => hn h.symm
      simp [hn, this, bytes]
  · intro n
    unfold startedOf
    rw [find_update hf]
    split
    · cases find c n <;> rfl
    · rfl
  · rw [names_update hf]; rfl

/-- Measured code runs as if it was not measured, and the clock agrees with the journal. -/
theorem exec_spec : ∀ (p : Prog) (path : List Str) (t : Int) (c : Clock), Apart path p →
    (∀ n, (startedOf c n).isSome = true ↔ n ∈ path) →
    ∃ log, Runs p t log (exec p t c).2.1 (exec p t c).1 ∧ Agrees c (exec p t c).2.2 log := by
  intro p
  induction p with
  | skip => intro path t c _ _; exact ⟨[], .skip, .refl c⟩
  | tick d => intro path t c _ _; exact ⟨[], .tick, .refl c⟩
  | bytes name n =>
    intro path t c ha hp
    exact ⟨_, .bytes, addBytes_agrees ((hp name).2 ha)⟩
  | raise n => intro path t c _ _; exact ⟨[], .raise, .refl c⟩
  | seq p q ihp ihq =>
    intro path t c ha hp
    obtain ⟨l1, r1, a1⟩ := ihp path t c ha.1 hp
    unfold exec
    cases hx : exec p t c with
    | mk o y =>
    obtain ⟨t1, c1⟩ := y
    rw [hx] at r1 a1
    cases o with
    | none =>
      obtain ⟨l2, r2, a2⟩ := ihq path t1 c1 ha.2 (fun n => by rw [a1.started]; exact hp n)
      exact ⟨_, .seq r1 r2, a1.trans a2⟩
    | some e => exact ⟨_, .seq_fails r1, a1⟩
  | handle p q ihp ihq =>
    intro path t c ha hp
    obtain ⟨l1, r1, a1⟩ := ihp path t c ha.1 hp
    unfold exec
    cases hx : exec p t c with
    | mk o y =>
    obtain ⟨t1, c1⟩ := y
    rw [hx] at r1 a1
    cases o with
    | none => exact ⟨_, .handle r1, a1⟩
    | some e =>
      obtain ⟨l2, r2, a2⟩ := ihq path t1 c1 ha.2 (fun n => by rw [a1.started]; exact hp n)
      exact ⟨_, .handled r1 r2, a1.trans a2⟩
  | run name p ih =>
    intro path t c ha hp
    have hnone : startedOf c name = none := by
      have := mt (hp name).1 ha.1
      simpa using this
    obtain ⟨c1, hs, s1, s2, s3, s4, s5, s6⟩ := start_spec (t := t) hnone
    obtain ⟨l, r, a⟩ := ih (name :: path) t c1 ha.2 (by
      intro n
      by_cases hn : n = name
      · subst hn; simp [s1]
      · rw [s2 n hn, hp n]; simp [hn])
    unfold exec
    rw [hs]
    simp only
    cases hx : exec p t c1 with
    | mk o y =>
    obtain ⟨t1, c2⟩ := y
    rw [hx] at r a
    simp only at r a
    obtain ⟨c3, hq, q1, q2, q3, q4, q5, q6⟩ := stopStat_spec (t := t1) o.isNone
      (show startedOf c2 name = some t by rw [a.started, s1])
    have hagree : Agrees c c3 (.began name :: l ++ [.ended name t t1 o.isNone]) := by
      refine ⟨fun n => ?_, fun n => ?_, fun n => ?_, fun n => ?_, ?_⟩
      · rw [q3, a.seconds, s3, List.cons_append]
        simp only [seconds, seconds_append]
        omega
      · rw [q4, a.ops, s4, List.cons_append]
        simp only [ops, ops_append]
        omega
      · rw [q5, a.bytes, s5, List.cons_append]
        simp only [bytes, bytes_append]
        omega
      · by_cases hn : n = name
        · subst hn; rw [q1, hnone]
        · rw [q2 n hn, a.started, s2 n hn]
      · rw [q6, a.names, s6, List.cons_append]
        simp only [order, order_append]
    cases o with
    | none =>
      simp only [Option.isNone_none] at hq
      simp only [hq]
      exact ⟨_, .run r, hagree⟩
    | some e =>
      simp only [Option.isNone_some] at hq
      simp only [hq]
      exact ⟨_, .run r, hagree⟩

/-- The time measured for a name is at most the time that passed. -/
theorem runs_bound {p : Prog} {t t' : Int} {l : List Entry} {o : Option Exn} (h : Runs p t l t' o) :
    ∀ path, Apart path p → t ≤ t' ∧ ∀ n, 0 ≤ seconds n l ∧ seconds n l ≤ t' - t ∧
      (n ∈ path → seconds n l = 0) := by
  induction h with
  | skip => intro path _; exact ⟨by omega, fun n => by simp [seconds]⟩
  | tick => intro path _; exact ⟨by omega, fun n => ⟨Int.le_refl _, by simp only [seconds]; omega, fun _ => rfl⟩⟩
  | bytes => intro path _; exact ⟨by omega, fun n => by simp [seconds]⟩
  | raise => intro path _; exact ⟨by omega, fun n => by simp [seconds]⟩
  | seq _ _ ih1 ih2 =>
    intro path ha
    obtain ⟨a1, a2⟩ := ih1 path ha.1
    obtain ⟨b1, b2⟩ := ih2 path ha.2
    refine ⟨by omega, fun n => ?_⟩
    obtain ⟨a3, a4, a5⟩ := a2 n
    obtain ⟨b3, b4, b5⟩ := b2 n
    rw [seconds_append]
    exact ⟨by omega, by omega, fun hn => by rw [a5 hn, b5 hn]; rfl⟩
  | seq_fails _ ih => intro path ha; exact ih path ha.1
  | handle _ ih => intro path ha; exact ih path ha.1
  | handled _ _ ih1 ih2 =>
    intro path ha
    obtain ⟨a1, a2⟩ := ih1 path ha.1
    obtain ⟨b1, b2⟩ := ih2 path ha.2
    refine ⟨by omega, fun n => ?_⟩
    obtain ⟨a3, a4, a5⟩ := a2 n
    obtain ⟨b3, b4, b5⟩ := b2 n
    rw [seconds_append]
    exact ⟨by omega, by omega, fun hn => by rw [a5 hn, b5 hn]; rfl⟩
  | @run p name t t1 l o _ ih =>
    intro path ha
    obtain ⟨a1, a2⟩ := ih (name :: path) ha.2
    refine ⟨a1, fun n => ?_⟩
    obtain ⟨a3, a4, a5⟩ := a2 n
    simp only [List.cons_append, seconds, seconds_append]
    by_cases hn : name = n
    · subst hn
      rw [a5 (List.mem_cons_self ..)]
      refine ⟨by simp; omega, by simp, fun hp => absurd hp ha.1⟩
    · rw [if_neg hn]
      refine ⟨by omega, by omega, fun hp => ?_⟩
      rw [a5 (List.mem_cons_of_mem _ hp)]
      rfl

/-! ### The server -/

theorem leaf_apart {name : Str} {p : Prog} (h : Leaf name p) : ∀ path, name ∈ path → Apart path p := by
  induction h with
  | skip | tick | raise => intro _ _; trivial
  | bytes => intro _ h; exact h
  | seq _ _ ih1 ih2 => intro path h; exact ⟨ih1 path h, ih2 path h⟩
  | handle _ _ ih1 ih2 => intro path h; exact ⟨ih1 path h, ih2 path h⟩

theorem opBody_apart {name : Str} {p : Prog} (h : OpBody name p) : ∀ path, name ∈ path →
    (∀ n ∈ path, '.' ∉ n) → Apart path p := by
  induction h with
  | leaf h => intro path hn _; exact leaf_apart h path hn
  | seq _ _ ih1 ih2 => intro path h g; exact ⟨ih1 path h g, ih2 path h g⟩
  | handle _ _ ih1 ih2 => intro path h g; exact ⟨ih1 path h g, ih2 path h g⟩
  | record h =>
    intro path hn hd
    refine ⟨fun hm => hd _ hm (by simp), leaf_apart h _ (List.mem_cons_self ..)⟩

theorem handlerBody_apart {p : Prog} (h : HandlerBody p) :
    Apart ["dispatch".toList, "connection".toList] p := by
  induction h with
  | leaf h => exact leaf_apart h _ (List.mem_cons_self ..)
  | seq _ _ ih1 ih2 => exact ⟨ih1, ih2⟩
  | handle _ _ ih1 ih2 => exact ⟨ih1, ih2⟩
  | @op name p hn h =>
    have key : ∀ name ∈ opNames, name ∉ ["dispatch".toList, "connection".toList] ∧
        ∀ n ∈ [name, "dispatch".toList, "connection".toList], '.' ∉ n := by decide
    obtain ⟨h1, h2⟩ := key name hn
    exact ⟨h1, opBody_apart h _ (List.mem_cons_self ..) h2⟩

theorem requests_apart {p : Prog} (h : Requests p) : Apart ["connection".toList] p := by
  induction h with
  | none => trivial
  | cons h _ ih => exact ⟨⟨⟨by decide, handlerBody_apart h⟩, trivial⟩, ih⟩

end Imageio.Stats
