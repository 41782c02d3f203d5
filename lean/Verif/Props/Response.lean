import Verif.Lemmas.Wire
import Verif.Props.Backends

/-! C70: the bytes of responses. -/

namespace Imageio.Props
open Imageio.Http Imageio.Images Imageio.Response Imageio.Spec.Wire Imageio.Spec

/-- There is only one way to read a response. -/
theorem C70_unambiguous {w b b' r r' : Bytes} {code code' : Nat} {fs fs' : List (Bytes × Bytes)}
    (h : Receives w code fs b r) (h' : Receives w code' fs' b' r') :
    code = code' ∧ fs = fs' ∧ b = b' ∧ r = r' := receives_unique h h'

theorem told_clean {c : Call} (h : CleanCall c) : ∀ a ∈ told c, CleanAct a := by
  unfold told
  cases hr : c.raises with
  | none => exact h.acts
  | some e =>
    simp only
    split
    · exact h.acts
    · intro a ha
      rcases List.mem_append.1 ha with ha | ha
      · exact h.acts a ha
      · have hclose : ∀ b : Bool, a ∈ (if b = true then [Act.close] else []) → CleanAct a := by
          intro b hb
          cases b with
          | false => simp at hb
          | true => rw [List.mem_singleton.1 hb]; trivial
        cases e with
        | http code m cr =>
          obtain ⟨h1, h2⟩ := h.error code m cr hr
          simp only [errorActs, List.mem_append] at ha
          rcases ha with ((ha | ha) | ha) | ha
          · exact hclose _ ha
          · simp only [List.mem_cons, List.not_mem_nil, or_false] at ha
            rcases ha with rfl | rfl | rfl
            · exact h1
            · exact ⟨name_type, clean_text⟩
            · exact ⟨name_length, fmt_clean _⟩
          · cases cr with
            | none => simp at ha
            | some v =>
              simp only [Option.map_some, Option.toList_some, List.mem_singleton] at ha
              rw [ha]
              exact ⟨name_range, h2 v rfl⟩
          · rw [List.mem_singleton.1 ha]; trivial
        | socket =>
          simp only [errorActs, List.mem_append] at ha
          rcases ha with (ha | ha) | ha
          · exact hclose _ ha
          · rcases List.mem_cons.1 ha with rfl | ha
            · exact (⟨by omega, by omega⟩ : 200 ≤ 500 ∧ 500 < 1000)
            rcases List.mem_cons.1 ha with rfl | ha
            · exact ⟨name_type, clean_text⟩
            rw [List.mem_singleton.1 ha]
            exact ⟨name_length, fmt_clean _⟩
          · rw [List.mem_singleton.1 ha]; trivial
        | other =>
          simp only [errorActs, List.mem_append] at ha
          rcases ha with (ha | ha) | ha
          · exact hclose _ ha
          · rcases List.mem_cons.1 ha with rfl | ha
            · exact (⟨by omega, by omega⟩ : 200 ≤ 500 ∧ 500 < 1000)
            rcases List.mem_cons.1 ha with rfl | ha
            · exact ⟨name_type, clean_text⟩
            rw [List.mem_singleton.1 ha]
            exact ⟨name_length, fmt_clean _⟩
          · rw [List.mem_singleton.1 ha]; trivial

theorem stream_complete {env : Env} (he : CleanEnv env) {c : Call} (hc : CleanCall c) (hh : Honest c)
    (b : Bool) (r : Resp) : Complete c (stream env (told c) (fresh b r)) := by
  obtain ⟨n, h1, h2⟩ := hh
  have ha := prepared_at (told_clean hc) b r
  refine ⟨_, values_said ha (env := env), ?_⟩
  intro later
  unfold stream
  rw [List.append_assoc, receives_iff he ha]
  refine ⟨rfl, rfl, _, length_said ha h1, ?_, ?_, ?_⟩
  · rw [List.length_append, h2]; omega
  · rw [← h2, List.take_left]
  · rw [← h2, List.drop_left]

theorem never_wrong {c : Call} {d s : Bytes} (hs : Complete c s) (hp : d <+: s) : NeverWrong c d := by
  intro code fs body rest h
  obtain ⟨x, rfl⟩ := hp
  obtain ⟨fs', h1, h2⟩ := hs
  have h3 := receives_mono h x
  have h4 := h2 []
  rw [List.append_nil] at h4
  obtain ⟨rfl, rfl, rfl, e⟩ := receives_unique h3 h4
  exact ⟨rfl, h1, rfl, (List.append_eq_nil_iff.1 e).1⟩

/-- A handler that fails after it wrote something closes the connection. -/
theorem raised_closing (env : Env) (c : Call) (r : Resp) (h : r.started = false) (hw : wrote c.acts = true)
    (hr : c.raises ≠ none) : (answer env c r).closing = true := by
  obtain ⟨-, u2⟩ := unstarted_run (env := env) (as := c.acts) h
  obtain ⟨s1, -⟩ := u2 hw
  unfold answer router
  generalize runActs env c.acts r = y at s1
  obtain ⟨res, r1⟩ := y
  cases res with
  | error e => simp only [failure_closing (show r1.started = true from s1)]; rfl
  | ok u =>
    simp only
    cases hc : c.raises with
    | some e => simp only [failure_closing (show r1.started = true from s1)]; rfl
    | none => exact absurd hc hr

/-- A handler that fails before it wrote everything it announced: the client receives no complete
response, and the connection is closed, so it does not wait for more. -/
theorem C70_truncated {env : Env} (he : CleanEnv env) (c : Call) (hc : CleanCall c)
    (hw : wrote c.acts = true) (hr : c.raises ≠ none)
    (hs : statusSaid (before (told c)) ≠ 204 ∧ statusSaid (before (told c)) ≠ 304) (n : Nat)
    (hv : valueSaid (lit "content-length") (before (told c)) = some (fmtNat n))
    (hn : (bodySaid (told c)).length < n) (r : Resp) :
    ∃ d, (answer env c (fresh c.close r)).out = r.out ++ d ∧
      (∀ code fs body rest, ¬ Receives d code fs body rest) ∧
      (answer env c (fresh c.close r)).closing = true := by
  obtain ⟨d, h1, ⟨x, h2⟩, -⟩ := answer_shape env c (fresh c.close r) rfl
  refine ⟨d, h1, ?_, raised_closing env c _ rfl hw hr⟩
  intro code fs body rest hx
  have hx := receives_mono hx x
  rw [h2] at hx
  have ha := prepared_at (told_clean hc) c.close r
  unfold stream at hx
  rw [receives_iff he ha, length_said ha hv, if_neg (by rintro (h | h); exacts [hs.1 h, hs.2 h])] at hx
  obtain ⟨-, -, m, hm, hl, -⟩ := hx
  cases hm
  omega

/-- For every failure of the socket and of the handler: if the client receives a complete response, it
is what the handler said, or its error; and either it does receive it, or the connection is
closed. -/
theorem C70_never_wrong {env : Env} (he : CleanEnv env) (c : Call) (hc : CleanCall c) (ha : Announced c)
    (r : Resp) :
    ∃ d, (answer env c (fresh c.close r)).out = r.out ++ d ∧ NeverWrong c d ∧
      (Complete c d ∨ (answer env c (fresh c.close r)).closing = true) := by
  rcases ha with hh | ⟨k1, k2, k3, k4, n, k5, k6⟩
  · obtain ⟨d, h1, h2, h3⟩ := answer_shape env c (fresh c.close r) rfl
    have hs := stream_complete he hc hh c.close r
    refine ⟨d, h1, never_wrong hs h2, ?_⟩
    rcases h3 with rfl | h3
    · exact .inl hs
    · exact .inr h3
  · obtain ⟨d, h1, h2, h3⟩ := C70_truncated he c hc k1 k2 ⟨k3, k4⟩ n k5 k6 r
    exact ⟨d, h1, fun _ _ _ _ h => absurd h (h2 _ _ _ _), .inr h3⟩

/-- All responses of a connection are received, in order; only the last one may be incomplete, and then
the connection is closed. -/
theorem C70_connection {env : Env} (he : CleanEnv env) (cs : List Call)
    (hc : ∀ c ∈ cs, CleanCall c ∧ Announced c) (r : Resp) (hr : r.closing = false) :
    ∃ w, (connection env cs r).out = r.out ++ w ∧ Stream cs w (connection env cs r).closing := by
  induction cs generalizing r with
  | nil => exact ⟨[], by simp [connection], by rw [connection, hr]; exact .done⟩
  | cons c cs ih =>
    obtain ⟨h1, h2⟩ := hc c (by simp)
    obtain ⟨d, g1, g2, g3⟩ := C70_never_wrong he c h1 h2 r
    unfold connection
    simp only
    split
    · rename_i hcl
      rw [hcl]
      exact ⟨d, g1, .last g2⟩
    · rename_i hcl
      obtain ⟨w, k1, k2⟩ := ih (fun c hm => hc c (List.mem_cons_of_mem _ hm)) _ (by simpa using hcl)
      refine ⟨d ++ w, by rw [k1, g1, List.append_assoc], .next ?_ k2⟩
      exact g3.resolve_right hcl

theorem send_works {data : Bytes} {r : Resp} (h : ∀ x ∈ r.writes, x = none) :
    (r.send data).1 = .ok () ∧ ∀ x ∈ (r.send data).2.writes, x = none := by
  unfold Resp.send
  cases hw : r.writes with
  | nil => exact ⟨rfl, by simp⟩
  | cons x ws =>
    have hx : x = none := h x (by simp [hw])
    subst hx
    exact ⟨rfl, fun y hy => h y (by rw [hw]; exact List.mem_cons_of_mem _ hy)⟩

theorem write_works {env : Env} {data : Bytes} {r : Resp} (h : ∀ x ∈ r.writes, x = none) :
    (r.write env data).1 = .ok () ∧ ∀ x ∈ (r.write env data).2.writes, x = none := by
  unfold Resp.write
  split
  · exact send_works h
  · simp only
    split
    · exact send_works h
    · obtain ⟨h1, h2⟩ := send_works (data := Resp.header env { r with started := true })
        (r := { r with started := true }) h
      generalize Resp.send (Resp.header env { r with started := true }) { r with started := true } = y at h1 h2
      obtain ⟨res, r1⟩ := y
      simp only at h1
      subst h1
      exact send_works h2

/-- The handler asked for closing the connection. -/
def closes (as : List Act) : Bool := as.any fun a => decide (a = .close)

theorem run_works {env : Env} {as : List Act} : ∀ {r : Resp}, (∀ x ∈ r.writes, x = none) → Orderly as →
    (r.started = true → ∀ t, .json t ∉ as) →
    (runActs env as r).1 = .ok () ∧ (∀ x ∈ (runActs env as r).2.writes, x = none) ∧
    (runActs env as r).2.closing = (r.closing || closes as) := by
  induction as with
  | nil => intro r h _ _; exact ⟨rfl, h, by simp [runActs, closes]⟩
  | cons a as ih =>
    intro r h ho hj
    have horder : Orderly as := by
      intro pre t post e
      have := ho (a :: pre) t post (by rw [e]; rfl)
      rw [wrote_cons, Bool.or_eq_false_iff] at this
      exact this.2
    have hafter : wrote [a] = true → ∀ t, .json t ∉ as := by
      intro hw t hm
      obtain ⟨pre, post, e⟩ := List.append_of_mem hm
      have := ho (a :: pre) t post (by rw [e]; rfl)
      rw [wrote_cons, hw] at this
      simp at this
    have hstep : (a.run env r).1 = .ok () ∧ (∀ x ∈ (a.run env r).2.writes, x = none) ∧
        (a.run env r).2.closing = (r.closing || decide (a = .close)) ∧
        ((a.run env r).2.started = true → ∀ t, .json t ∉ as) := by
      have hkeep : r.started = true → ∀ t, .json t ∉ as :=
        fun hs t hm => hj hs t (List.mem_cons_of_mem _ hm)
      cases a with
      | status c => exact ⟨rfl, h, by simp [Act.run], hkeep⟩
      | header n v => exact ⟨rfl, h, by simp [Act.run], hkeep⟩
      | close => exact ⟨rfl, h, by simp [Act.run, Resp.close], hkeep⟩
      | write data =>
        obtain ⟨h1, h2⟩ := write_works (env := env) (data := data) h
        refine ⟨h1, h2, ?_, fun _ => hafter rfl⟩
        show (r.write env data).2.closing = _
        rw [write_closing]
        simp
      | json t =>
        have hs : r.started = false := by
          cases hs : r.started with
          | false => rfl
          | true => exact absurd (by simp) (hj hs t)
        have e : Act.run env r (.json t) = Resp.write env (encode t ++ [10]) (prepare (prepare (prepare r
            (.status 200)) (.header (lit "content-length") (fmtNat (encode t ++ [10]).length)))
            (.header (lit "content-type") (lit "application/json"))) := by
          show r.sendJson env t = _
          unfold Resp.sendJson
          rw [if_neg (by simp [hs])]
          rfl
        rw [e]
        obtain ⟨h1, h2⟩ := write_works (env := env) (data := encode t ++ [10])
          (r := prepare (prepare (prepare r (.status 200)) (.header (lit "content-length")
            (fmtNat (encode t ++ [10]).length))) (.header (lit "content-type") (lit "application/json"))) h
        refine ⟨h1, h2, ?_, fun _ => hafter rfl⟩
        rw [write_closing]
        simp [prepare]
    obtain ⟨s1, s2, s3, s4⟩ := hstep
    unfold runActs
    generalize a.run env r = y at s1 s2 s3 s4
    obtain ⟨res, r1⟩ := y
    simp only at s1
    subst s1
    obtain ⟨t1, t2, t3⟩ := ih s2 horder s4
    refine ⟨t1, t2, ?_⟩
    show (runActs env as r1).2.closing = _
    rw [t3, show r1.closing = _ from s3]
    unfold closes
    rw [List.any_cons, Bool.or_assoc]

/-- If the socket works, the client receives what a handler that returns said, and the connection is
closed only if the handler or the request asked for it. -/
theorem C70_response {env : Env} (he : CleanEnv env) (c : Call) (hc : CleanCall c) (hh : Honest c)
    (r : Resp) (hw : ∀ x ∈ r.writes, x = none) (hr : c.raises = none) (ho : Orderly c.acts) :
    ∃ d, (answer env c (fresh c.close r)).out = r.out ++ d ∧ Complete c d ∧
      (answer env c (fresh c.close r)).closing = (c.close || closes c.acts) := by
  have hcl : (answer env c (fresh c.close r)).closing = (c.close || closes c.acts) ∧
      (answer env c (fresh c.close r)).out = r.out ++ stream env (told c) (fresh c.close r) := by
    obtain ⟨t1, t2, t3⟩ := run_works (env := env) (as := c.acts) (r := fresh c.close r) hw ho
      (fun h => by simp [fresh] at h)
    have ht : told c = c.acts := by unfold told; rw [hr]
    obtain ⟨u1, u2⟩ := unstarted_run (env := env) (as := c.acts) (r := fresh c.close r) rfl
    rw [ht]
    unfold answer router
    rw [hr]
    cases hwr : wrote c.acts with
    | true =>
      obtain ⟨s1, d, s2, -, s4⟩ := u2 hwr
      generalize runActs env c.acts (fresh c.close r) = y at t1 t2 t3 s1 s2 s4
      obtain ⟨res, r1⟩ := y
      simp only at t1
      subst t1
      simp only
      rw [if_pos (show r1.started = true from s1)]
      exact ⟨t3, by rw [← s4 rfl]; exact s2⟩
    | false =>
      obtain ⟨v1, v2, v3, v4⟩ := u1 hwr
      rw [v1] at t2 t3
      rw [v1]
      simp only
      rw [if_neg (by simp [v2])]
      obtain ⟨w1, w2⟩ := write_works (env := env) (data := []) t2
      obtain ⟨-, d, s2, -, s4⟩ := write_unstarted (env := env) (data := []) v2
      have hcl := write_closing env [] (prepared c.acts (fresh c.close r))
      have e := s4 w1
      generalize (prepared c.acts (fresh c.close r)).write env [] = y at w1 s2 hcl
      obtain ⟨res, r1⟩ := y
      simp only at w1
      subst w1
      simp only
      refine ⟨by rw [hcl]; exact t3, ?_⟩
      rw [show r1.out = _ from s2, v3, e]
      unfold stream
      rw [v4]
      rfl
  exact ⟨_, hcl.2, stream_complete he hc hh c.close r, hcl.1⟩

theorem plain_unwritten {as : List Act} (h : wrote as = false) : plain as = as := by
  induction as with
  | nil => rfl
  | cons a as ih =>
    rw [wrote_cons, Bool.or_eq_false_iff] at h
    have ih := ih h.2
    cases a with
    | json t => simp [wrote] at h
    | write d => simp [wrote] at h
    | status c => exact congrArg (_ :: ·) ih
    | header n v => exact congrArg (_ :: ·) ih
    | close => exact congrArg (_ :: ·) ih

theorem before_unwritten {as : List Act} (h : wrote as = false) (bs : List Act) :
    before (as ++ bs) = as ++ before bs := by
  unfold before
  rw [plain_append, plain_unwritten h]
  induction as with
  | nil => rfl
  | cons a as ih =>
    rw [wrote_cons, Bool.or_eq_false_iff] at h
    have ih := ih h.2
    cases a with
    | json t => simp [wrote] at h
    | write d => simp [wrote] at h
    | status c => exact congrArg (_ :: ·) ih
    | header n v => exact congrArg (_ :: ·) ih
    | close => exact congrArg (_ :: ·) ih

theorem body_unwritten {as : List Act} (h : wrote as = false) (bs : List Act) :
    bodySaid (as ++ bs) = bodySaid bs := by
  induction as with
  | nil => rfl
  | cons a as ih =>
    rw [wrote_cons, Bool.or_eq_false_iff] at h
    rw [List.cons_append, bodySaid_cons, ih h.2]
    cases a with
    | json t => simp [wrote] at h
    | write d => simp [wrote] at h
    | status c => rfl
    | header n v => rfl
    | close => rfl

theorem fieldSaid_append (m : Str) (as bs : List Act) :
    fieldSaid m (as ++ bs) = (fieldSaid m bs).or (fieldSaid m as) := by
  induction as with
  | nil => simp [fieldSaid]
  | cons a as ih => rw [List.cons_append, fieldSaid_cons, ih, fieldSaid_cons m a as, Option.or_assoc]

theorem statusSaid_append (as bs : List Act) : statusSaid (as ++ bs) = statusAfter (statusSaid as) bs := by
  unfold statusSaid statusAfter
  rw [List.filterMap_append, List.getLast?_append]
  generalize (List.filterMap _ bs).getLast? = x
  cases x <;> simp

/-- The status and text of an error, as the client sees it. -/
def errorText : Failure → Nat × Str × Option Str
  | .http code message cr => (code, message, cr)
  | _ => (500, lit "Server failed to perform the request, check logs", none)

theorem errorActs_eq (u : Bool) (e : Failure) :
    errorActs u e = ((if u then [.close] else []) ++
      [.status (errorText e).1, .header (lit "content-type") (lit "text/plain; charset=UTF-8"),
        .header (lit "content-length") (fmtNat (encode (errorText e).2.1 ++ [10]).length)] ++
      ((errorText e).2.2.map fun v => Act.header (lit "content-range") v).toList) ++
      [.write (encode (errorText e).2.1 ++ [10])] := by
  cases e <;> simp [errorActs, errorText]

theorem field_header (m n v : Str) : fieldSaid m [.header n v] = if lower n = m then some v else none := by
  unfold fieldSaid
  by_cases h : lower n = m
  · rw [if_pos h]; simp [h]
  · rw [if_neg h]; simp [h]

theorem error_said (u : Bool) (e : Failure) :
    bodySaid (errorActs u e) = encode (errorText e).2.1 ++ [10] ∧
    (∀ st, statusAfter st (before (errorActs u e)) = (errorText e).1) ∧
    fieldSaid (lit "content-length") (before (errorActs u e)) =
      some (fmtNat (encode (errorText e).2.1 ++ [10]).length) ∧
    fieldSaid (lit "content-type") (before (errorActs u e)) = some (lit "text/plain; charset=UTF-8") ∧
    fieldSaid (lit "content-range") (before (errorActs u e)) = (errorText e).2.2 ∧
    fieldSaid (lit "connection") (before (errorActs u e)) = (if u then some (lit "close") else none) ∧
    (∀ m, m ∉ [lit "content-length", lit "content-type", lit "content-range", lit "connection"] →
      fieldSaid m (before (errorActs u e)) = none) := by
  rw [errorActs_eq]
  generalize errorText e = t
  obtain ⟨code, msg, cr⟩ := t
  simp only
  generalize encode msg ++ [10] = body
  have hu : wrote ((if u then [.close] else []) ++
      [.status code, .header (lit "content-type") (lit "text/plain; charset=UTF-8"),
        .header (lit "content-length") (fmtNat body.length)] ++
      (cr.map fun v => Act.header (lit "content-range") v).toList) = false := by
    cases u <;> cases cr <;> rfl
  rw [before_unwritten hu, body_unwritten hu]
  have hb : before [.write body] = [] := rfl
  rw [hb, List.append_nil]
  have hf : ∀ m, fieldSaid m ((if u then [.close] else []) ++
      [.status code, .header (lit "content-type") (lit "text/plain; charset=UTF-8"),
        .header (lit "content-length") (fmtNat body.length)] ++
      (cr.map fun v => Act.header (lit "content-range") v).toList) =
      (if lit "content-range" = m then cr else none).or
        ((if lit "content-length" = m then some (fmtNat body.length) else none).or
          ((if lit "content-type" = m then some (lit "text/plain; charset=UTF-8") else none).or
            (if lit "connection" = m then (if u then some (lit "close") else none) else none))) := by
    intro m
    rw [fieldSaid_append, fieldSaid_append]
    have e1 : fieldSaid m (cr.map fun v => Act.header (lit "content-range") v).toList =
        if lit "content-range" = m then cr else none := by
      cases cr with
      | none => simp [fieldSaid]
      | some v =>
        show fieldSaid m [.header (lit "content-range") v] = _
        rw [field_header, show lower (lit "content-range") = lit "content-range" by decide]
    have e2 : fieldSaid m (if u then [.close] else []) =
        if lit "connection" = m then (if u then some (lit "close") else none) else none := by
      cases u with
      | false => simp [fieldSaid]
      | true =>
        show fieldSaid m [.close] = _
        unfold fieldSaid
        by_cases h : lit "connection" = m
        · rw [if_pos h]; simp [h]
        · rw [if_neg h]; simp [h]
    rw [e1, e2, fieldSaid_cons m (.status code), fieldSaid_cons m (.header _ _), field_header, field_header,
      lower_length, lower_type]
    have e3 : fieldSaid m [.status code] = none := rfl
    rw [e3, Option.or_none, Option.or_assoc]
  have n1 : lit "content-range" ≠ lit "content-length" := by decide
  have n2 : lit "content-range" ≠ lit "content-type" := by decide
  have n3 : lit "content-length" ≠ lit "content-type" := by decide
  have n4 : lit "content-range" ≠ lit "connection" := by decide
  have n5 : lit "content-length" ≠ lit "connection" := by decide
  have n6 : lit "content-type" ≠ lit "connection" := by decide
  refine ⟨by simp [bodySaid, plain], ?_, ?_, ?_, ?_, ?_, ?_⟩
  · intro st
    cases u <;> cases cr <;> rfl
  · rw [hf, if_neg n1, if_pos rfl]; rfl
  · rw [hf, if_neg n2, if_neg n3, if_pos rfl]; rfl
  · rw [hf, if_pos rfl, if_neg n1.symm, if_neg n2.symm, if_neg n4.symm]; simp
  · rw [hf, if_neg n4, if_neg n5, if_neg n6, if_pos rfl]; rfl
  · intro m hm
    simp only [List.mem_cons, List.not_mem_nil, or_false, not_or] at hm
    obtain ⟨m1, m2, m3, m4⟩ := hm
    rw [hf, if_neg fun h => m3 h.symm, if_neg fun h => m1 h.symm, if_neg fun h => m2 h.symm,
      if_neg fun h => m4 h.symm]
    rfl

/-- A handler that fails before it wrote anything: the client receives the status and the text of the
error (internal errors are not exposed), with the right length.  The fields the handler set
before it failed are sent too. -/
theorem C70_error {env : Env} (he : CleanEnv env) (c : Call) (hc : CleanCall c) (r : Resp)
    (hw : ∀ x ∈ r.writes, x = none) (e : Failure) (hr : c.raises = some e) (hb : wrote c.acts = false)
    (u : Bool) (hu : c.unread = some u) (hl : ¬ (e = .socket ∧ c.lost = true))
    (hcode : (errorText e).1 ≠ 204 ∧ (errorText e).1 ≠ 304) :
    Honest c ∧ statusSaid (before (told c)) = (errorText e).1 ∧
    bodySaid (told c) = encode (errorText e).2.1 ++ [10] ∧
    valueSaid (lit "content-type") (before (told c)) = some (lit "text/plain; charset=UTF-8") ∧
    (∀ m, m ∉ [lit "content-length", lit "content-type", lit "content-range", lit "connection"] →
      valueSaid m (before (told c)) = fieldSaid m c.acts) ∧
    ∃ d, (answer env c (fresh c.close r)).out = r.out ++ d ∧ Complete c d ∧
      (answer env c (fresh c.close r)).closing = (c.close || closes c.acts || u) := by
  have hbe : (some u == some true) = u := by cases u <;> rfl
  have ht : told c = c.acts ++ errorActs u e := by
    unfold told
    rw [hr]
    simp only
    rw [if_neg (by simp [hb]), hu, hbe]
  obtain ⟨k1, k2, k3, k4, -, -, k5⟩ := error_said u e
  have h1 : statusSaid (before (told c)) = (errorText e).1 := by
    rw [ht, before_unwritten hb, statusSaid_append]
    exact k2 _
  have h2 : bodySaid (told c) = encode (errorText e).2.1 ++ [10] := by
    rw [ht, body_unwritten hb, k1]
  have hh : Honest c := by
    refine ⟨(encode (errorText e).2.1 ++ [10]).length, ?_, ?_⟩
    · rw [ht, before_unwritten hb]
      unfold valueSaid
      rw [fieldSaid_append, k3]
      rfl
    · rw [h1, h2, if_neg (by rintro (h | h); exacts [hcode.1 h, hcode.2 h])]
  refine ⟨hh, h1, h2, ?_, ?_, ?_⟩
  · rw [ht, before_unwritten hb]
    unfold valueSaid
    rw [fieldSaid_append, k4]
    rfl
  · intro m hm
    rw [ht, before_unwritten hb]
    unfold valueSaid
    rw [fieldSaid_append, k5 m hm, Option.none_or, if_neg (by
      intro h
      exact hm (by simp [h])), Option.or_none]
  · have ho : Orderly (c.acts ++ errorActs u e) := by
      intro pre t post h
      exfalso
      have hm : Act.json t ∈ c.acts ++ errorActs u e := by rw [h]; simp
      rcases List.mem_append.1 hm with hm | hm
      · have : wrote c.acts = true := by
          unfold wrote
          rw [List.any_eq_true]
          exact ⟨_, hm, rfl⟩
        rw [hb] at this
        simp at this
      · rw [errorActs_eq] at hm
        cases u <;> cases h2 : (errorText e).2.2 <;> rw [h2] at hm <;> simp at hm
    obtain ⟨v1, v2, v3, v4⟩ := (unstarted_run (env := env) (as := c.acts) (r := fresh c.close r) rfl).1 hb
    obtain ⟨t1, -, t3⟩ := run_works (env := env) (as := c.acts ++ errorActs u e) (r := fresh c.close r) hw ho
      (fun h => by simp [fresh] at h)
    obtain ⟨s1, d, s2, s3, s4⟩ := (unstarted_run (env := env) (as := c.acts ++ errorActs u e)
      (r := fresh c.close r) rfl).2 (by rw [wrote_append, wrote_error, Bool.or_true])
    have hd := s4 t1
    subst hd
    have hcs : closes (c.acts ++ errorActs u e) = (closes c.acts || u) := by
      unfold closes
      rw [List.any_append, errorActs_eq]
      congr 1
      cases u <;> cases (errorText e).2.2 <;> rfl
    have ha : answer env c (fresh c.close r) = (runActs env (c.acts ++ errorActs u e) (fresh c.close r)).2 := by
      unfold answer router
      rw [v1]
      simp only
      rw [hr]
      simp only
      rw [failure_run v2 hu hl, ← runActs_append v1]
      generalize runActs env (c.acts ++ errorActs u e) (fresh c.close r) = y at t1
      obtain ⟨res, r1⟩ := y
      simp only at t1
      subst t1
      rfl
    have hs := stream_complete he hc hh c.close r
    rw [ht] at hs
    rw [ha]
    refine ⟨_, s2, hs, ?_⟩
    rw [t3, hcs, Bool.or_assoc]
    rfl

/-- A field nobody sets has no value. -/
theorem fieldSaid_none {m : Str} {as : List Act} (h : ∀ n v, .header n v ∈ as → lower n ≠ m)
    (hc : lit "connection" ≠ m) : fieldSaid m as = none := by
  induction as with
  | nil => rfl
  | cons a as ih =>
    rw [fieldSaid_cons, ih fun n v hm => h n v (List.mem_cons_of_mem _ hm), Option.none_or]
    cases a with
    | header n v => rw [field_header, if_neg (h n v (by simp))]
    | close => unfold fieldSaid; simp [hc]
    | status c => rfl
    | json t => rfl
    | write d => rfl

/-- The fields set before the first byte are those of the handler, and those of JSON. -/
theorem header_before {n v : Str} {as : List Act} (h : .header n v ∈ before as) :
    .header n v ∈ as ∨ n = lit "content-length" ∨ n = lit "content-type" := by
  have h : .header n v ∈ plain as := (List.takeWhile_sublist _).subset h
  clear * - h
  induction as with
  | nil => simp [plain] at h
  | cons a as ih =>
    have lift : (.header n v ∈ plain as) → _ := fun hm => (ih hm).imp_left (List.mem_cons_of_mem a)
    cases a with
    | json t =>
      rcases List.mem_append.1 h with h | h
      · rcases List.mem_cons.1 h with h | h
        · cases h
        · rcases List.mem_cons.1 h with h | h
          · injection h with h; exact .inr (.inl h)
          · rcases List.mem_cons.1 h with h | h
            · injection h with h; exact .inr (.inr h)
            · rcases List.mem_cons.1 h with h | h
              · cases h
              · cases h
      · exact lift h
    | header n' v' =>
      rcases List.mem_cons.1 h with h | h
      · rw [h]; exact .inl (by simp)
      · exact lift h
    | close => exact lift ((List.mem_cons.1 h).resolve_left nofun)
    | status c => exact lift ((List.mem_cons.1 h).resolve_left nofun)
    | write d => exact lift ((List.mem_cons.1 h).resolve_left nofun)

/-- What the CORS decorator says. -/
theorem cors_said (methods : Str) (origin headers method : Option Str) (m : Str) :
    wrote (corsActs methods origin headers method) = false ∧
    (∀ st, statusAfter st (corsActs methods origin headers method) = st) ∧
    fieldSaid m (corsActs methods origin headers method) =
      (if lit "access-control-max-age" = m then
        (if origin.getD [] ≠ [] ∨ headers.getD [] ≠ [] ∨ method.getD [] ≠ [] then some (lit "86400") else none)
        else none).or
      ((if lit "access-control-allow-methods" = m then (if method.getD [] ≠ [] then some methods else none)
        else none).or
      ((if lit "access-control-allow-headers" = m then (if headers.getD [] ≠ [] then some (lit "*") else none)
        else none).or
      (if lit "access-control-allow-origin" = m then (if origin.getD [] ≠ [] then some (lit "*") else none)
        else none))) := by
  unfold corsActs
  simp only
  have hage : fmtNat (24 * 3600) = lit "86400" := by decide +kernel
  rw [hage]
  have l1 : lower (lit "access-control-max-age") = lit "access-control-max-age" := by decide
  have l2 : lower (lit "access-control-allow-methods") = lit "access-control-allow-methods" := by decide
  have l3 : lower (lit "access-control-allow-headers") = lit "access-control-allow-headers" := by decide
  have l4 : lower (lit "access-control-allow-origin") = lit "access-control-allow-origin" := by decide
  have hn : fieldSaid m [] = none := rfl
  refine ⟨?_, ?_, ?_⟩
  · (repeat' split) <;> rfl
  · intro st
    (repeat' split) <;> rfl
  · rw [fieldSaid_append, fieldSaid_append, fieldSaid_append]
    have e : ∀ (p : Bool) (n v : Str), fieldSaid m (if p = true then [.header n v] else []) =
        if lower n = m then (if p = true then some v else none) else none := by
      intro p n v
      cases p with
      | false => simp [hn]
      | true => rw [if_pos rfl, field_header]; simp
    rw [e, e, e, e, l1, l2, l3, l4]
    simp only [Bool.or_eq_true, decide_eq_true_eq, or_assoc]

/-- The CORS fields are sent exactly for the requests that ask for them, and change nothing else. -/
theorem C70_cors (methods : Str) (origin headers method : Option Str) (as : List Act)
    (hn : ∀ n v, .header n v ∈ as → lower n ∉ [lit "access-control-allow-origin",
      lit "access-control-allow-headers", lit "access-control-allow-methods", lit "access-control-max-age"]) :
    let given : Option Str → Prop := fun v => ∃ c s, v = some (c :: s)
    let all := corsActs methods origin headers method ++ as
    statusSaid (before all) = statusSaid (before as) ∧ bodySaid all = bodySaid as ∧
    (∀ m, m ∉ [lit "access-control-allow-origin", lit "access-control-allow-headers",
      lit "access-control-allow-methods", lit "access-control-max-age"] →
      valueSaid m (before all) = valueSaid m (before as)) ∧
    (∀ v, valueSaid (lit "access-control-allow-origin") (before all) = some v ↔ v = lit "*" ∧ given origin) ∧
    (∀ v, valueSaid (lit "access-control-allow-headers") (before all) = some v ↔ v = lit "*" ∧ given headers) ∧
    (∀ v, valueSaid (lit "access-control-allow-methods") (before all) = some v ↔ v = methods ∧ given method) ∧
    (∀ v, valueSaid (lit "access-control-max-age") (before all) = some v ↔
      v = lit "86400" ∧ (given origin ∨ given headers ∨ given method)) := by
  intro given all
  have hg : ∀ v : Option Str, v.getD [] ≠ [] ↔ given v := by
    intro v
    show _ ↔ ∃ c s, v = some (c :: s)
    cases v with
    | none => simp
    | some s => cases s <;> simp
  obtain ⟨hw, hst, -⟩ := cors_said methods origin headers method []
  have hf := fun m => (cors_said methods origin headers method m).2.2
  have hb : before all = corsActs methods origin headers method ++ before as := before_unwritten hw _
  have hno : ∀ m ∈ [lit "access-control-allow-origin", lit "access-control-allow-headers",
      lit "access-control-allow-methods", lit "access-control-max-age"], fieldSaid m (before as) = none := by
    intro m hm
    have d : ∀ x ∈ [lit "access-control-allow-origin", lit "access-control-allow-headers",
        lit "access-control-allow-methods", lit "access-control-max-age"],
        lit "content-length" ≠ x ∧ lit "content-type" ≠ x ∧ lit "connection" ≠ x := by decide
    refine fieldSaid_none ?_ (d m hm).2.2
    intro n v hv
    rcases header_before hv with h | h | h
    · intro e
      exact hn n v h (e ▸ hm)
    · rw [h, lower_length]; exact (d m hm).1
    · rw [h, lower_type]; exact (d m hm).2.1
  have hcl : ∀ m ∈ [lit "access-control-allow-origin", lit "access-control-allow-headers",
      lit "access-control-allow-methods", lit "access-control-max-age"], m ≠ lit "content-length" := by decide
  have hv : ∀ m ∈ [lit "access-control-allow-origin", lit "access-control-allow-headers",
      lit "access-control-allow-methods", lit "access-control-max-age"],
      valueSaid m (before all) = fieldSaid m (corsActs methods origin headers method) := by
    intro m hm
    unfold valueSaid
    rw [hb, fieldSaid_append, hno m hm, Option.none_or, if_neg (hcl m hm), Option.or_none]
  have n1 : lit "access-control-max-age" ≠ lit "access-control-allow-methods" := by decide
  have n2 : lit "access-control-max-age" ≠ lit "access-control-allow-headers" := by decide
  have n3 : lit "access-control-max-age" ≠ lit "access-control-allow-origin" := by decide
  have n4 : lit "access-control-allow-methods" ≠ lit "access-control-allow-headers" := by decide
  have n5 : lit "access-control-allow-methods" ≠ lit "access-control-allow-origin" := by decide
  have n6 : lit "access-control-allow-headers" ≠ lit "access-control-allow-origin" := by decide
  have some_if : ∀ (p : Prop) [Decidable p] (x v : Str), (if p then some x else none) = some v ↔ v = x ∧ p := by
    intro p _ x v
    by_cases hp : p
    · simp [hp, eq_comm]
    · simp [hp]
  refine ⟨?_, ?_, ?_, ?_, ?_, ?_, ?_⟩
  · rw [hb]
    show statusSaid _ = _
    have h0 : statusSaid (corsActs methods origin headers method) = 200 := hst 200
    rw [statusSaid_append, h0]
    rfl
  · exact body_unwritten hw _
  · intro m hm
    have he : fieldSaid m (corsActs methods origin headers method) = none := by
      simp only [List.mem_cons, List.not_mem_nil, or_false, not_or] at hm
      obtain ⟨m1, m2, m3, m4⟩ := hm
      rw [hf, if_neg fun h => m4 h.symm, if_neg fun h => m3 h.symm, if_neg fun h => m2 h.symm,
        if_neg fun h => m1 h.symm]
      rfl
    unfold valueSaid
    rw [hb, fieldSaid_append, he, Option.or_none]
  · intro v
    rw [hv _ (by simp), hf, if_neg n3, if_neg n5, if_neg n6, if_pos rfl, Option.none_or, Option.none_or,
      Option.none_or, some_if, hg]
  · intro v
    rw [hv _ (by simp), hf, if_neg n2, if_neg n4, if_pos rfl, if_neg n6.symm, Option.none_or, Option.none_or,
      Option.or_none, some_if, hg]
  · intro v
    rw [hv _ (by simp), hf, if_neg n1, if_pos rfl, if_neg n4.symm, if_neg n5.symm, Option.none_or,
      Option.none_or, Option.or_none, some_if, hg]
  · intro v
    rw [hv _ (by simp), hf, if_pos rfl, if_neg n1.symm, if_neg n2.symm, if_neg n3.symm, Option.none_or,
      Option.none_or, Option.or_none, some_if, hg, hg, hg]

/-- An informational response before the response changes nothing for the client. -/
theorem C70_info {env : Env} (he : CleanEnv env) (code : Nat) (h1 : 100 ≤ code) (h2 : code < 200)
    (msg : Str) (hm : env.reason code = some msg) (r : Resp) (hs : r.started = false)
    (hw : ∀ x ∈ r.writes, x = none) :
    (r.sendInfo env code).1 = .ok () ∧ (r.sendInfo env code).2.started = false ∧
    ∃ i, (r.sendInfo env code).2.out = r.out ++ i ∧ i ≠ [] ∧
      ∀ w st fs body rest, Receives (i ++ w) st fs body rest ↔ Receives w st fs body rest := by
  have e : r.sendInfo env code = r.send
      (encode (lit "HTTP/1.1 " ++ fmtNat code ++ lit " " ++ msg) ++ (crlf ++ crlf)) := by
    unfold Resp.sendInfo
    rw [hs, hm]
    rfl
  rw [e]
  obtain ⟨k1, d, k2, -, k3⟩ := send_out (encode (lit "HTTP/1.1 " ++ fmtNat code ++ lit " " ++ msg) ++
    (crlf ++ crlf)) r
  have hok := (send_works (data := encode (lit "HTTP/1.1 " ++ fmtNat code ++ lit " " ++ msg) ++
    (crlf ++ crlf)) (r := r) hw).1
  have hd := k3 hok
  subst hd
  refine ⟨hok, k1.trans hs, _, k2, by simp [crlf], ?_⟩
  intro w st fs body rest
  have hl : line ((encode (lit "HTTP/1.1 " ++ fmtNat code ++ lit " " ++ msg) ++ (crlf ++ crlf)) ++ w) =
      some (encode (lit "HTTP/1.1 " ++ fmtNat code ++ lit " " ++ msg), crlf ++ w) := by
    have := line_crlf (clean_bytes (clean_status code (he.reason code msg hm))) (crlf ++ w)
    simpa [crlf, List.append_assoc] using this
  have hst := read_status h1 (by omega) msg
  have hf : Fields (crlf ++ w) [] w := .done rfl
  constructor
  · intro h
    cases h with
    | info hl' hs' hc hf' h =>
      rw [hl] at hl'
      cases hl'
      obtain ⟨-, rfl⟩ := fields_unique hf hf'
      exact h
    | final hl' hs' hc =>
      rw [hl] at hl'
      cases hl'
      rw [hst] at hs'
      cases hs'
      omega
  · intro h
    exact .info hl hst h2 hf h

theorem fmtInt_clean (i : Int) : Clean (fmtInt i) := by
  cases i with
  | ofNat n => exact fmt_clean n
  | negSucc n =>
    intro c hc
    rcases List.mem_cons.1 hc with h | h
    · subst h; decide
    · exact fmt_clean _ c h

theorem range_clean (o s t : Int) : Clean (serverContentRange o s t) := by
  have hb : Clean "bytes ".toList := by unfold Clean; decide
  intro c hc
  unfold serverContentRange at hc
  rcases List.mem_append.1 hc with h | h
  · exact clean_append hb (fmtInt_clean o) c h
  · rcases List.mem_cons.1 h with h | h
    · subst h; decide
    · rcases List.mem_append.1 h with h | h
      · exact fmtInt_clean _ c h
      · rcases List.mem_cons.1 h with h | h
        · subst h; decide
        · exact fmtInt_clean _ c h

/-- The value of content-disposition. -/
def disposition (filename : Str) : Str :=
  lit "attachment" ++ if filename = [] then [] else lit "; filename=" ++ filename

theorem writes_said (data : List Bytes) :
    before (data.map .write) = [] ∧ bodySaid (data.map .write) = data.flatten ∧
    closes (data.map .write) = false ∧ ∀ t, Act.json t ∉ data.map Act.write := by
  induction data with
  | nil => exact ⟨rfl, rfl, rfl, by simp⟩
  | cons d data ih =>
    obtain ⟨_, h2, h3, h4⟩ := ih
    refine ⟨rfl, ?_, ?_, ?_⟩
    · rw [List.map_cons, bodySaid_cons, h2]
      simp [bodySaid, plain]
    · unfold closes at h3 ⊢
      rw [List.map_cons, List.any_cons, h3]
      rfl
    · intro t h
      rw [List.map_cons, List.mem_cons] at h
      rcases h with h | h
      · cases h
      · exact h4 t h

/-- What the actions of a download say. -/
theorem get_said (close : Bool) (filename : Str) (ranged : Bool) (offset : Nat) (size total : Int)
    (data : List Bytes) :
    let as := getActs close filename ranged offset size total data
    statusSaid (before as) = (if ranged then 206 else 200) ∧ bodySaid as = data.flatten ∧
    valueSaid (lit "content-length") (before as) = some (fmtInt size) ∧
    valueSaid (lit "content-type") (before as) = some (lit "application/octet-stream") ∧
    valueSaid (lit "content-disposition") (before as) = some (disposition filename) ∧
    valueSaid (lit "content-range") (before as) =
      (if ranged then some (serverContentRange offset size total) else none) ∧
    closes as = close ∧ ∀ t, .json t ∉ as := by
  intro as
  obtain ⟨w1, w2, w3, w4⟩ := writes_said data
  have hw : wrote ((if close then [.close] else []) ++
      [.header (lit "content-length") (fmtInt size),
       .header (lit "content-type") (lit "application/octet-stream"),
       .header (lit "content-disposition") (disposition filename)] ++
      (if ranged then [.status 206, .header (lit "content-range") (serverContentRange offset size total)]
        else [])) = false := by
    cases close <;> cases ranged <;> rfl
  have hb : before as = ((if close then [.close] else []) ++
      [.header (lit "content-length") (fmtInt size),
       .header (lit "content-type") (lit "application/octet-stream"),
       .header (lit "content-disposition") (disposition filename)] ++
      (if ranged then [.status 206, .header (lit "content-range") (serverContentRange offset size total)]
        else [])) := by
    refine (before_unwritten hw _).trans ?_
    rw [w1, List.append_nil]
  have hf : ∀ m, fieldSaid m (before as) =
      (if lit "content-range" = m then
        (if ranged then some (serverContentRange offset size total) else none) else none).or
        ((if lit "content-disposition" = m then some (disposition filename) else none).or
          ((if lit "content-type" = m then some (lit "application/octet-stream") else none).or
            ((if lit "content-length" = m then some (fmtInt size) else none).or
              (if lit "connection" = m then (if close then some (lit "close") else none) else none)))) := by
    intro m
    rw [hb, fieldSaid_append, fieldSaid_append]
    have e1 : fieldSaid m (if ranged then
        [.status 206, .header (lit "content-range") (serverContentRange offset size total)] else []) =
        if lit "content-range" = m then
          (if ranged then some (serverContentRange offset size total) else none) else none := by
      cases ranged with
      | false => simp [fieldSaid]
      | true =>
        show fieldSaid m [.status 206, .header (lit "content-range") _] = _
        rw [fieldSaid_cons, field_header, show lower (lit "content-range") = lit "content-range" by decide]
        have : fieldSaid m [.status 206] = none := rfl
        rw [this, Option.or_none]
        rfl
    have e2 : fieldSaid m (if close then [.close] else []) =
        if lit "connection" = m then (if close then some (lit "close") else none) else none := by
      cases close with
      | false => simp [fieldSaid]
      | true =>
        show fieldSaid m [.close] = _
        unfold fieldSaid
        by_cases h : lit "connection" = m
        · rw [if_pos h]; simp [h]
        · rw [if_neg h]; simp [h]
    rw [e1, e2, fieldSaid_cons m (.header _ _), fieldSaid_cons m (.header _ _), field_header, field_header,
      field_header, lower_length, lower_type,
      show lower (lit "content-disposition") = lit "content-disposition" by decide]
    simp only [Option.or_assoc]
  have n1 : lit "content-range" ≠ lit "content-disposition" := by decide
  have n2 : lit "content-range" ≠ lit "content-type" := by decide
  have n3 : lit "content-range" ≠ lit "content-length" := by decide
  have n4 : lit "content-disposition" ≠ lit "content-type" := by decide
  have n5 : lit "content-disposition" ≠ lit "content-length" := by decide
  have n6 : lit "content-type" ≠ lit "content-length" := by decide
  have n7 : lit "connection" ≠ lit "content-range" := by decide
  unfold valueSaid
  refine ⟨?_, ?_, ?_, ?_, ?_, ?_, ?_, ?_⟩
  · rw [hb]; cases close <;> cases ranged <;> rfl
  · exact (body_unwritten hw _).trans w2
  · rw [hf, if_neg n3, if_neg n5, if_neg n6, if_pos rfl]; rfl
  · rw [hf, if_neg n2, if_neg n4, if_pos rfl]; rfl
  · rw [hf, if_neg n1, if_pos rfl]; rfl
  · rw [hf, if_pos rfl, if_neg n1.symm, if_neg n2.symm, if_neg n3.symm, if_neg n7, if_neg n3]
    simp
  · show closes (_ ++ data.map Act.write) = close
    unfold closes at w3 ⊢
    rw [List.any_append, w3, Bool.or_false]
    cases close <;> cases ranged <;> rfl
  · intro t h
    rcases List.mem_append.1 h with h | h
    · have : wrote ((if close then [.close] else []) ++
        [.header (lit "content-length") (fmtInt size),
         .header (lit "content-type") (lit "application/octet-stream"),
         .header (lit "content-disposition") (disposition filename)] ++
        (if ranged then [.status 206, .header (lit "content-range") (serverContentRange offset size total)]
          else [])) = true := by
        unfold wrote
        rw [List.any_eq_true]
        exact ⟨_, h, rfl⟩
      rw [hw] at this
      cases this
    · exact w4 t h

theorem get_clean (close : Bool) {filename : Str} (hf : Clean filename) (ranged : Bool) (offset : Nat)
    (size total : Int) (data : List Bytes) :
    ∀ a ∈ getActs close filename ranged offset size total data, CleanAct a := by
  have hd : Clean (disposition filename) := by
    unfold disposition
    refine clean_append (by unfold Clean; decide) ?_
    split
    · intro c hc; cases hc
    · exact clean_append (by unfold Clean; decide) hf
  intro a ha
  unfold getActs at ha
  rcases List.mem_append.1 ha with ha | ha
  · rcases List.mem_append.1 ha with ha | ha
    · rcases List.mem_append.1 ha with ha | ha
      · cases close with
        | false => cases ha
        | true => rw [List.mem_singleton.1 ha]; trivial
      · rcases List.mem_cons.1 ha with ha | ha
        · rw [ha]; exact ⟨name_length, fmtInt_clean _⟩
        · rcases List.mem_cons.1 ha with ha | ha
          · rw [ha]; exact ⟨name_type, by unfold Clean; decide⟩
          · rw [List.mem_singleton.1 ha]; exact ⟨by unfold Name; decide, hd⟩
    · cases ranged with
      | false => cases ha
      | true =>
        rcases List.mem_cons.1 ha with ha | ha
        · rw [ha]; exact ⟨by decide, by decide⟩
        · rw [List.mem_singleton.1 ha]; exact ⟨name_range, range_clean _ _ _⟩
  · obtain ⟨d, -, rfl⟩ := List.mem_map.1 ha
    trivial

/-- A download: when nothing is in the way, the client that parses the bytes of the connection gets the
status, the fields and exactly the bytes of the image, however they are written, and the next
response starts after them. -/
theorem C70_download {σ : Type} {B : Backend σ} (L : Lawful B) (a : Access) (q : GetReq)
    (buf : Bytes) (hb : 0 < buf.length) (hbs : buf.length % B.blockSize = 0) (s : σ) (hi : L.Inv s)
    (c : Conn) (hc : Fresh c) (offset size : Nat)
    (hw : Wanted (min a.size (B.size s)) q.range offset size) (lost : Bool)
    (hid : q.ticketId ≠ []) (hauth : a.auth = none) (hnr : a.refused = false)
    (hnc : a.canceled = false) (hal : 0 < size ∨ offset % B.blockSize = 0)
    (hst : ¬ L.MayFail offset size) (hwr : ∀ b ∈ c.writes, b = true)
    {env : Env} (he : CleanEnv env) (filename : Str) (hfn : Clean filename) (data : List Bytes)
    (hdata : data.flatten = (serve lost (Images.get B a q buf s c)).2.body)
    (call : Call) (hcall : call.acts = getActs (decide (queryGet q.query (lit "close") = some (lit "y")))
      filename q.range.isSome offset size a.size data) (hret : call.raises = none)
    (r : Resp) (hrw : ∀ x ∈ r.writes, x = none) :
    ∃ d fs, (answer env call (fresh call.close r)).out = r.out ++ d ∧
      (∀ later, Receives (d ++ later) (if q.range = none then 200 else 206) fs
        (load (L.content s) offset size) later) ∧
      values fs (encode (lit "content-disposition")) = [trim (encode (disposition filename))] ∧
      values fs (encode (lit "content-range")) = (if q.range = none then [] else
        [trim (encode (serverContentRange offset size a.size))]) ∧
      (answer env call (fresh call.close r)).closing =
        (call.close || decide (queryGet q.query (lit "close") = some (lit "y"))) := by
  obtain ⟨-, g2, -, -⟩ := C11_get_succeeds L a q buf hb hbs s hi c hc offset size hw lost hid hauth hnr
    hnc hal hst hwr
  obtain ⟨k1, k2, k3, -, k5, k6, k7, k8⟩ := get_said
    (decide (queryGet q.query (lit "close") = some (lit "y"))) filename q.range.isSome offset size a.size data
  rw [← hcall] at k1 k2 k3 k5 k6 k7 k8
  have ht : told call = call.acts := by unfold told; rw [hret]
  rw [hdata, g2] at k2
  have hh : Honest call := by
    refine ⟨size, ?_, ?_⟩
    · rw [ht, k3]; rfl
    · rw [ht, k2, k1]
      have : ¬ ((if q.range.isSome = true then 206 else 200) = 204 ∨
          (if q.range.isSome = true then 206 else 200) = 304) := by
        cases q.range.isSome <;> decide
      rw [if_neg this, load_length]
  have hcc : CleanCall call := by
    refine ⟨?_, ?_⟩
    · rw [hcall]; exact get_clean _ hfn _ _ _ _ _
    · intro code m x h; rw [hret] at h; cases h
  obtain ⟨d, h1, ⟨fs, h2, h3⟩, h4⟩ := C70_response he call hcc hh r hrw hret (by
    intro pre t post h
    exact absurd (by rw [h]; simp) (k8 t))
  rw [ht, k1, k2] at h3
  have hif : ∀ {α : Type} (x y : α), (if q.range.isSome = true then x else y) =
      if q.range = none then y else x := by
    intro α x y
    cases q.range <;> rfl
  refine ⟨d, fs, h1, ?_, ?_, ?_, ?_⟩
  · intro later
    rw [← hif]
    exact h3 later
  · have := h2 (lit "content-disposition") (by decide) (by decide)
    simp only [ht, k5] at this
    exact this
  · have := h2 (lit "content-range") (by decide) (by decide)
    simp only [ht, k6] at this
    rw [this, hif]
    cases q.range <;> rfl
  · rw [h4, k7]

/-! ## Examples and counterexamples -/

/-- The texts of a server. -/
def respEnv : Env where
  reason c := if c = 200 then some (lit "OK") else if c = 206 then some (lit "Partial Content")
    else if c = 500 then some (lit "Internal Server Error") else if c = 100 then some (lit "Continue") else none
  version := lit "imageio/2.5.0"
  date := lit "Tue, 17 Nov 2026 12:00:00 GMT"

theorem respEnv_clean : CleanEnv respEnv where
  reason c s h := by
    unfold respEnv at h
    simp only at h
    have h1 : Clean (lit "OK") := by unfold Clean; decide
    have h2 : Clean (lit "Partial Content") := by unfold Clean; decide
    have h3 : Clean (lit "Internal Server Error") := by unfold Clean; decide
    have h4 : Clean (lit "Continue") := by unfold Clean; decide
    split at h
    · cases h; exact h1
    · split at h
      · cases h; exact h2
      · split at h
        · cases h; exact h3
        · split at h
          · cases h; exact h4
          · cases h
  version := by unfold Clean; decide
  date := by unfold Clean; decide

/-- A response that was not used yet, on a socket that works. -/
def wireResp : Resp := fresh false {}

/-- A download of 4 bytes. -/
def wireGet (filename : Str) (data : List Bytes) : Call where
  acts := getActs false filename false 0 4 4 data
  raises := none
  lost := false
  unread := some false
  close := false

theorem wireGet_clean {filename : Str} (h : Clean filename) (data : List Bytes) : CleanCall (wireGet filename data) :=
  ⟨get_clean _ h _ _ _ _ _, fun _ _ _ h => by cases h⟩

theorem wireGet_honest (filename : Str) {data : List Bytes} (h : data.flatten.length = 4) :
    Honest (wireGet filename data) := by
  obtain ⟨k1, k2, k3, -⟩ := get_said false filename false 0 4 4 data
  refine ⟨4, k3, ?_⟩
  show (bodySaid (getActs false filename false 0 4 4 data)).length = if statusSaid (before
    (getActs false filename false 0 4 4 data)) = 204 ∨ statusSaid (before
    (getActs false filename false 0 4 4 data)) = 304 then 0 else 4
  rw [k1, k2, h]
  rfl

theorem wireGet_orderly (filename : Str) (data : List Bytes) : Orderly (wireGet filename data).acts := by
  intro pre t post h
  have hm : .json t ∈ (wireGet filename data).acts := by rw [h]; simp
  exact absurd hm ((get_said false filename false 0 4 4 data).2.2.2.2.2.2.2 t)

/-- The download of a file with a proper name. -/
example : ∃ d, (answer respEnv (wireGet (lit "disk.raw") [[1, 2], [3, 4]]) wireResp).out = d ∧
    Complete (wireGet (lit "disk.raw") [[1, 2], [3, 4]]) d := by
  obtain ⟨d, h1, h2, -⟩ := C70_response respEnv_clean (wireGet (lit "disk.raw") [[1, 2], [3, 4]])
    (wireGet_clean (by unfold Clean; decide) _) (wireGet_honest _ (by decide)) {} (by simp) rfl
    (wireGet_orderly _ _)
  exact ⟨d, h1, h2⟩

/-- The connection breaks in the middle of the response. -/
example : ∃ d, (answer respEnv (wireGet (lit "disk.raw") [[1, 2], [3, 4]])
    (fresh false { writes := [none, some 1] })).out = d ∧ NeverWrong (wireGet (lit "disk.raw") [[1, 2], [3, 4]]) d := by
  obtain ⟨d, h1, h2, -⟩ := C70_never_wrong respEnv_clean (wireGet (lit "disk.raw") [[1, 2], [3, 4]])
    (wireGet_clean (by unfold Clean; decide) _) (.inl (wireGet_honest _ (by decide)))
    { writes := [none, some 1] }
  exact ⟨d, h1, h2⟩

/-- Two downloads on a connection. -/
example : ∃ w, (connection respEnv [wireGet (lit "disk.raw") [[1, 2], [3, 4]], wireGet [] [[5, 6, 7, 8]]] {}).out = w ∧
    Stream [wireGet (lit "disk.raw") [[1, 2], [3, 4]], wireGet [] [[5, 6, 7, 8]]] w
      (connection respEnv [wireGet (lit "disk.raw") [[1, 2], [3, 4]], wireGet [] [[5, 6, 7, 8]]] {}).closing := by
  obtain ⟨w, h1, h2⟩ := C70_connection respEnv_clean
    [wireGet (lit "disk.raw") [[1, 2], [3, 4]], wireGet [] [[5, 6, 7, 8]]] (by
      intro c hc
      rcases List.mem_cons.1 hc with rfl | hc
      · exact ⟨wireGet_clean (by unfold Clean; decide) _, .inl (wireGet_honest _ (by decide))⟩
      · rw [List.mem_singleton.1 hc]
        exact ⟨wireGet_clean (by unfold Clean; decide) _, .inl (wireGet_honest _ (by decide))⟩) {} rfl
  exact ⟨w, h1, h2⟩

/-- The storage fails after two bytes of four. -/
def wireShort : Call := { wireGet (lit "disk.raw") [[1, 2]] with raises := some .other }

theorem wireShort_clean : CleanCall wireShort :=
  ⟨get_clean _ (by unfold Clean; decide) _ _ _ _ _, fun _ _ _ h => by cases h⟩

example : ∃ d, (answer respEnv wireShort wireResp).out = d ∧ (∀ code fs body rest, ¬ Receives d code fs body rest) ∧
    (answer respEnv wireShort wireResp).closing = true := by
  obtain ⟨k1, k2, k3, -⟩ := get_said false (lit "disk.raw") false 0 4 4 [[1, 2]]
  have hs : statusSaid (before (told wireShort)) = 200 := k1
  obtain ⟨d, h1, h2, h3⟩ := C70_truncated respEnv_clean wireShort wireShort_clean (by decide) nofun
    (by rw [hs]; decide) 4 k3 (by
      show (bodySaid (getActs false (lit "disk.raw") false 0 4 4 [[1, 2]])).length < 4
      rw [k2]; decide) {}
  exact ⟨d, h1, h2, h3⟩

/-- The storage fails before the first byte of a range. -/
def wireFails : Call where
  acts := getActs false (lit "disk.raw") true 0 4 8 []
  raises := some .other
  lost := false
  unread := some false
  close := false

theorem wireFails_clean : CleanCall wireFails :=
  ⟨get_clean _ (by unfold Clean; decide) _ _ _ _ _, fun _ _ _ h => by cases h⟩

theorem wireFails_range : valueSaid (lit "content-range") (before (told wireFails)) =
    some (lit "bytes 0-3/8") := by
  decide +kernel

/-- The error of a download that fails describes the bytes that are not sent: the fields that the handler
set before it failed are sent with the error. -/
theorem C70_counterexample_stale_fields :
    ∃ d fs body, (answer respEnv wireFails wireResp).out = d ∧ Receives d 500 fs body [] ∧
      values fs (encode (lit "content-range")) = [trim (encode (lit "bytes 0-3/8"))] ∧
      values fs (encode (lit "content-disposition")) =
        [trim (encode (disposition (lit "disk.raw")))] := by
  obtain ⟨-, h2, -, -, h5, d, h6, ⟨fs, h7, h8⟩, -⟩ := C70_error respEnv_clean wireFails wireFails_clean {}
    (by simp) .other rfl (by decide) false rfl nofun (by decide)
  have h9 := h8 []
  rw [h2, List.append_nil] at h9
  refine ⟨d, fs, _, h6, h9, ?_, ?_⟩
  · have := h7 (lit "content-range") (by decide) (by decide)
    simp only [wireFails_range] at this
    exact this
  · have := h7 (lit "content-disposition") (by decide) (by decide)
    simp only [h5 (lit "content-disposition") (by decide)] at this
    have hf : fieldSaid (lit "content-disposition") wireFails.acts =
        some (disposition (lit "disk.raw")) := by decide +kernel
    rw [hf] at this
    exact this

theorem wire_inject : (answer respEnv (wireGet (lit "disk\r\n\r\n") [[1, 2, 3, 4]]) wireResp).out =
    (answer respEnv (wireGet (lit "disk") [[13, 10, 13, 10]]) wireResp).out ++ [1, 2, 3, 4] := by
  decide +kernel

/-- The file name of a ticket is not checked: with line ends in it, the client receives a complete
response with other bytes than the image. -/
theorem C70_counterexample_filename :
    ∃ d fs, (answer respEnv (wireGet (lit "disk\r\n\r\n") [[1, 2, 3, 4]]) wireResp).out = d ∧
      Receives d 200 fs [13, 10, 13, 10] [1, 2, 3, 4] := by
  obtain ⟨d, h1, ⟨fs, h2, h3⟩, -⟩ := C70_response respEnv_clean (wireGet (lit "disk") [[13, 10, 13, 10]])
    (wireGet_clean (by unfold Clean; decide) _) (wireGet_honest _ (by decide)) {} (by simp) rfl
    (wireGet_orderly _ _)
  obtain ⟨k1, k2, -⟩ := get_said false (lit "disk") false 0 4 4 [[13, 10, 13, 10]]
  refine ⟨_, fs, rfl, ?_⟩
  rw [wire_inject]
  have h1 : (answer respEnv (wireGet (lit "disk") [[13, 10, 13, 10]]) wireResp).out = d := h1
  rw [h1]
  have ht : told (wireGet (lit "disk") [[13, 10, 13, 10]]) = getActs false (lit "disk") false 0 4 4 [[13, 10, 13, 10]] := rfl
  have := h3 [1, 2, 3, 4]
  rw [ht, k1, k2] at this
  exact this

/-- A block device. -/
def wireDevice : File.State := ⟨[1, 2, 3, 4, 5, 6, 7, 8], [], 0, true, true, true, [], [], []⟩

/-- The download of all of it, in two writes. -/
def wireDownload : Call := { wireGet (lit "disk.raw") [] with
  acts := getActs false (lit "disk.raw") false 0 8 8 [[1, 2, 3, 4, 5], [6, 7, 8]] }

theorem wireDownload_body : [[1, 2, 3, 4, 5], [6, 7, 8]].flatten = (serve false
    (Images.get (File.backend ⟨true, 4, true⟩) (authorized 8) ⟨lit "id", [], none⟩ [0, 0, 0, 0] wireDevice
      { req := { header := none }, rest := [] })).2.body := by
  decide +kernel

example : ∃ d fs, (answer respEnv wireDownload wireResp).out = d ∧
    ∀ later, Receives (d ++ later) 200 fs (load (byteAt wireDevice.data) 0 8) later := by
  obtain ⟨d, fs, h1, h2, -⟩ := C70_download (File.lawful ⟨true, 4, true⟩ (by decide) True 8 (by decide))
    (authorized 8) ⟨lit "id", [], none⟩ [0, 0, 0, 0] (by decide) (by decide) wireDevice
    ⟨fun _ => rfl, fun _ => rfl⟩ { req := { header := none }, rest := [] } ⟨rfl, rfl, rfl, rfl, rfl, rfl, rfl⟩
    0 8 (.all (by decide)) false (by decide) rfl rfl rfl (.inl (by decide))
    (by intro h; simp [Lawful.MayFail, File.lawful, File.backend] at h; omega) (by simp) respEnv_clean (lit "disk.raw")
    (by unfold Clean; decide) [[1, 2, 3, 4, 5], [6, 7, 8]] wireDownload_body wireDownload rfl rfl {} (by simp)
  exact ⟨d, fs, h1, h2⟩

/-- Nothing happens before the request is answered with 100. -/
example : ((fresh false {}).sendInfo respEnv 100).1 = .ok () :=
  (C70_info respEnv_clean 100 (by omega) (by omega) (lit "Continue") rfl _ rfl (by simp [fresh])).1

/-- A preflight request. -/
example : valueSaid (lit "access-control-allow-methods")
    (before (corsActs (lit "OPTIONS,GET,PUT") (some (lit "https://engine")) none (some (lit "PUT")) ++
      [.header (lit "allow") (lit "OPTIONS")])) = some (lit "OPTIONS,GET,PUT") := by
  refine ((C70_cors _ _ _ _ _ ?_).2.2.2.2.2.1 _).2 ⟨rfl, 'P', lit "UT", by decide⟩
  intro n v h
  rw [List.mem_singleton] at h
  cases h
  decide

end Imageio.Props
