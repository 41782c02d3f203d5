import Verif.Lemmas.HttpBackend
import Verif.Spec.ImageioClient

namespace Imageio.HttpBackend
open Http Images Spec Props

/-! Requests past the end of the ticket. -/

theorem putRequest_out {σ : Type} {S : Server σ} (L : Lawful S.B) (hS : S.Proper) (length : Nat) (hlen : 0 < length)
    (body : Bytes) (w : World σ) (hi : L.Inv w.srv)
    (hout : S.ticketSize < w.client.position + length) {r : Except Err Response} {w' : World σ}
    (h : putRequest S length body w = (r, w')) :
    w'.client = w.client ∧ w'.srv = w.srv ∧ ∀ resp, r = .ok resp → resp.status ≠ 200 := by
  obtain ⟨last, hcr, hlast⟩ := C17_client_round_trip w.client.position length hlen
  unfold putRequest at h
  simp only at h
  generalize hq : (PutReq.mk S.ticketId (if w.client.canFlush = true then [(lit "flush", lit "n")]
      else []) (some (clientContentRange w.client.position length))) = q at h
  have hfr := Net.conn_fresh w.net (some length) body
  have hann := Net.conn_announces w.net length body
  have hp := put_post L S.buf.length hS.buf_pos hS.buf_aligned (w.net.access S.ticketSize) q w.srv hi
    (w.net.conn (some length) body).rest length (w.net.conn (some length) body) (hfr.synced hann)
  have hoff : putOffset q.contentRange = some w.client.position := by
    subst hq; simp only [putOffset, hcr, Option.map_some]
  unfold serve at h
  generalize put S.B S.buf.length (w.net.access S.ticketSize) q w.srv (w.net.conn (some length) body) = x at h hp
  obtain ⟨r1, s1, c1⟩ := x
  obtain ⟨hn, hp⟩ := hp
  simp only at h hp hn
  have hle : ∀ offset : Nat, putOffset q.contentRange = some offset →
      ¬ (offset : Int) + length ≤ (w.net.access S.ticketSize).size := by
    intro offset ho hle
    rw [hoff] at ho
    cases ho
    have : ((w.client.position : Nat) : Int) + length ≤ (S.ticketSize : Nat) := hle
    omega
  cases h
  cases hp with
  | done offset fl ho hf ha hnr hnc hle' => exact absurd hle' (hle _ ho)
  | part offset j e he ho hle' => exact absurd hle' (hle _ ho)
  | failed offset e he ho hle' => exact absurd hle' (hle _ ho)
  | refused e he why big =>
    refine ⟨rfl, rfl, fun resp hr hst => ?_⟩
    split at hr
    · cases hr
    · obtain ⟨l, hl, -⟩ := Net.response_ok hr
      rw [hst] at hl
      have := sent_200 hfr hn hl (by rintro e' ⟨⟩; intro h2; simp [h2] at he)
      cases this

theorem putResult_out {σ : Type} {S : Server σ} (L : Lawful S.B) (hS : S.Proper) (length : Nat) (hlen : 0 < length)
    (body : Bytes) (w : World σ) (hi : L.Inv w.srv)
    (hout : S.ticketSize < w.client.position + length) {r : Except Err Nat} {w' : World σ}
    (h : putResult length (putRequest S length body w) = (r, w')) :
    w'.client = w.client ∧ w'.srv = w.srv ∧ ∃ e, r = .error e := by
  cases hx : putRequest S length body w with
  | mk r1 w1 =>
  obtain ⟨h1, h2, h3⟩ := putRequest_out L hS length hlen body w hi hout hx
  rw [hx] at h
  unfold putResult at h
  cases r1 with
  | error e => cases h; exact ⟨h1, h2, _, rfl⟩
  | ok resp =>
    simp only [if_pos (h3 resp rfl)] at h
    cases h; exact ⟨h1, h2, _, rfl⟩

theorem zero_out {σ : Type} {S : Server σ} (L : Lawful S.B) (hS : S.Proper) (length : Nat) (hlen : 0 < length)
    (w : World σ) (hi : L.Inv w.srv) (hout : S.ticketSize < w.client.position + length)
    {r : Except Err Nat} {w' : World σ} (h : zero S w length = (r, w')) :
    w'.client = w.client ∧ w'.srv = w.srv ∧ ∃ e, r = .error e := by
  cases r with
  | ok n =>
    have := (zero_spec (reliable := False) L hS length hlen w hi (fun h => h.elim) h).2.1 n rfl
    omega
  | error e =>
    have hc := ((zero_spec (reliable := False) L hS length hlen w hi (fun h => h.elim) h).2.2 e rfl).2.2.1
    refine ⟨hc, ?_, e, rfl⟩
    unfold zero at h
    cases hz : w.client.canZero with
    | false =>
      rw [hz] at h
      exact (putResult_out L hS length hlen _ w hi hout h).2.1
    | true =>
      rw [hz] at h
      simp only [Bool.not_true, Bool.false_eq_true, if_false] at h
      cases hx : patchRequest S (zeroMessage w.client.position length (!w.client.canFlush)) w with
      | mk r1 w1 =>
      have hw : w' = w1 := by
        rw [hx] at h
        cases r1 with
        | error e' => cases h; rfl
        | ok u => cases h
      subst hw
      clear h
      generalize hfl : (!w.client.canFlush) = fl at hx
      have hmsg := zeroMessage_zero w.client.position length fl
      obtain ⟨z1, z2, z3, z4⟩ := (zeroMessage_iff _ _ _ _).1 hmsg
      rw [patchRequest_eq] at hx
      have hl := hS.loads_zero w.client.position length fl
      have hpart := hS.part_zero w.client.position length fl
      have hfr := Net.conn_fresh w.net (some (S.dumps (zeroMessage w.client.position length fl)).length)
        (S.dumps (zeroMessage w.client.position length fl))
      have hann := Net.conn_announces w.net (S.dumps (zeroMessage w.client.position length fl)).length
        (S.dumps (zeroMessage w.client.position length fl))
      generalize hb : S.dumps (zeroMessage w.client.position length fl) = body at hx hfr hann hl hpart
      obtain ⟨k, hk, hkc⟩ := Net.conn_rest w.net (some body.length) body
      have hp := patch_post_any L (w.net.access S.ticketSize) S.loads S.ticketId w.srv hi _ _ _
        (hfr.synced hann)
      unfold serve at hx
      generalize patch S.B (w.net.access S.ticketSize) S.loads S.ticketId w.srv
        (w.net.conn (some body.length) body) = x at hx hp
      obtain ⟨r2, s1, c1⟩ := x
      obtain ⟨hn, hp⟩ := hp
      simp only at hx hp hn
      rw [hk] at hp
      have hw' : w'.srv = s1 := by
        have := congrArg Prod.snd hx
        rw [patchResult_world] at this
        exact (congrArg World.srv this).symm
      rw [hw']
      have hmsgs : ∀ m, S.loads ((body.take k).take body.length) = some m →
          m = zeroMessage w.client.position length fl := by
        intro m hm
        rw [List.take_take] at hm
        by_cases hkl : body.length ≤ k
        · rw [List.take_of_length_le (by omega), hl] at hm
          exact (Option.some.inj hm).symm
        · rw [hpart _ (by omega)] at hm
          cases hm
      have hle : ¬ ((w.client.position : Nat) : Int) + length ≤ (w.net.access S.ticketSize).size := by
        intro hle
        have : ((w.client.position : Nat) : Int) + length ≤ (S.ticketSize : Nat) := hle
        omega
      cases hp with
      | refused e he why => rfl
      | flush msg hid hm hop post hrest =>
        rw [hmsgs msg hm, z1] at hop
        exact absurd hop (by decide)
      | zero msg hid hm hop post hrest =>
        rw [hmsgs msg hm] at post
        cases post with
        | refused e he why big => rfl
        | done size offset f2 hs ho hf ha hnr hnc hle' =>
          rw [z2] at hs; rw [z3] at ho; cases hs; cases ho
          exact absurd hle' hle
        | part size offset j hs ho hle' =>
          rw [z2] at hs; rw [z3] at ho; cases hs; cases ho
          exact absurd hle' hle
        | failed size offset e he hs ho hle' =>
          rw [z2] at hs; rw [z3] at ho; cases hs; cases ho
          exact absurd hle' hle

theorem getRequest_out {σ : Type} {S : Server σ} (hS : S.Proper) (position length : Nat) (hlen : 0 < length)
    (w : World σ) (hout : S.ticketSize < position + length) {r : Except Err Response} {w' : World σ}
    (h : getRequest S (some (clientRange position length)) w = (r, w')) :
    w'.srv = w.srv ∧ ∀ resp, r = .ok resp → resp.status ≠ 206 := by
  obtain ⟨last, hp, hl⟩ := C16_client_range position length hlen
  have key : ∃ e c1, errorCode e ≠ 206 ∧ NoResponse (w.net.conn none []) c1 ∧
      Images.get S.B (w.net.access S.ticketSize) ⟨S.ticketId, [], some (clientRange position length)⟩ S.buf w.srv
        (w.net.conn none []) = (.error e, w.srv, c1) := by
    obtain ⟨hq1, _, _, _, _⟩ := closeQuery_frame [] (w.net.conn none [])
    unfold Images.get
    simp only [hS.ticketId, if_false, hp]
    have h0 : ¬ ((position : Nat) : Int) < 0 := by omega
    rw [if_neg h0]
    cases ha : (w.net.access S.ticketSize).auth with
    | some err =>
      obtain ⟨e', he', hc'⟩ := raiseErr_code err (closeQuery [] (w.net.conn none []))
      have hcon := (raiseErr_conn err (closeQuery [] (w.net.conn none []))).1
      refine ⟨e', (raiseErr err (closeQuery [] (w.net.conn none []))).2, ?_, hq1.trans hcon, ?_⟩
      · intro h; rw [h] at hc'; revert hc'; decide
      · simp only [← he']
    | none =>
      have : ((position : Nat) : Int) + ((last : Int) - position + 1) > (w.net.access S.ticketSize).size := by
        show _ > ((S.ticketSize : Nat) : Int)
        omega
      simp only [if_pos this]
      exact ⟨_, _, by decide, hq1, rfl⟩
  obtain ⟨e, c1, he, hn, hg⟩ := key
  unfold getRequest serve at h
  simp only [hg] at h
  cases h
  refine ⟨rfl, fun resp hr hst => ?_⟩
  obtain ⟨l, hl, -⟩ := Net.response_ok hr
  have hfr := Net.conn_fresh w.net none []
  rcases finish_sent (lost := w.net.lost) (r := .error e) (hn.started.trans hfr.started)
    (hn.sent.trans hfr.sent) with h' | h'
  · rw [h'] at hl; cases hl
  · rw [h', hst] at hl
    simp only [List.cons.injEq] at hl
    exact he hl.1

/-! Readers and writers. -/

open ImageioClient (Reader Writer reader writer)

theorem reader_readinto (t : Reader) (n : Nat) (hn : 0 < n) :
    (∃ e t', t.readinto n = (.error e, t') ∧ none ∈ t.plan) ∨
    ∃ k t', k ≤ n ∧ t.readinto n = (.ok (t.rest.take k), t') ∧ t'.rest = t.rest.drop k ∧ t'.plan = t.plan.tail ∧
      0 < k := by
  unfold Reader.readinto
  match hp : t.plan with
  | [] => exact .inr ⟨n, _, Nat.le_refl _, rfl, rfl, rfl, hn⟩
  | none :: p => exact .inl ⟨_, _, rfl, by simp⟩
  | some k :: p => exact .inr ⟨min n (k + 1), _, Nat.min_le_left _ _, rfl, rfl, rfl, by omega⟩

theorem readerBody_reader (step : Nat) (hstep : 0 < step) (todo : Nat) : ∀ (t : Reader) r body t',
    readerBody reader step todo t = (r, body, t') →
    body.length ≤ todo ∧
    (r = .ok () → todo ≤ t.rest.length ∧ body = t.rest.take todo ∧ t'.rest = t.rest.drop todo) ∧
    (none ∉ t.plan → todo ≤ t.rest.length → r = .ok ()) := by
  induction todo using Nat.strongRecOn with
  | ind todo ih =>
    intro t r body t' h
    unfold readerBody at h
    by_cases h0 : todo = 0
    · subst h0
      simp only [dif_pos] at h
      cases h
      exact ⟨Nat.le_refl _, fun _ => ⟨Nat.zero_le _, rfl, rfl⟩, fun _ _ => rfl⟩
    · rw [dif_neg h0] at h
      rcases reader_readinto t (min todo step) (by omega) with ⟨e, t1, hx, hm⟩ | ⟨k, t1, hk, hx, hr, hpl, hk0⟩
      · rw [show reader.readinto t (min todo step) = _ from hx] at h
        cases h
        exact ⟨Nat.zero_le _, by simp, fun hn => absurd hm hn⟩
      · rw [show reader.readinto t (min todo step) = _ from hx] at h
        simp only at h
        by_cases hd : (t.rest.take k).length = 0
        · rw [dif_pos hd] at h
          cases h
          refine ⟨Nat.zero_le _, by simp, fun _ hle => ?_⟩
          simp only [List.length_take] at hd
          omega
        · rw [dif_neg hd] at h
          have hlt : (t.rest.take k).length ≤ k := List.length_take_le _ _
          cases hy : readerBody reader step (todo - (t.rest.take k).length) t1 with
          | mk r2 x =>
          obtain ⟨b2, t2⟩ := x
          obtain ⟨i1, i2, i3⟩ := ih (todo - (t.rest.take k).length) (by omega) t1 _ _ _ hy
          rw [hy] at h
          simp only [Prod.mk.injEq] at h
          obtain ⟨rfl, rfl, rfl⟩ := h
          simp only [List.length_take] at i1 i2 i3 hd hlt
          refine ⟨by simp; omega, fun hok => ?_, fun hn hle => i3 ?_ ?_⟩
          · obtain ⟨j1, j2, j3⟩ := i2 hok
            rw [hr] at j1 j2 j3
            rw [List.length_drop] at j1
            have hk1 : min k t.rest.length = k := by omega
            rw [hk1] at j2 j3 j1
            refine ⟨by omega, ?_, ?_⟩
            · rw [j2]
              have : todo = k + (todo - k) := by omega
              conv_rhs => rw [this, List.take_add]
            · rw [j3, List.drop_drop]
              congr 1; omega
          · rw [hpl]; exact fun h => hn (List.mem_of_mem_tail h)
          · rw [hr, List.length_drop]; omega

theorem writer_write (t : Writer) (addr : Nat) (d : Bytes) :
    (∃ e t', t.write addr d = (.error e, t') ∧ false ∈ t.plan) ∨
    ∃ t', t.write addr d = (.ok d.length, t') ∧ t'.got = t.got ++ d ∧ t'.plan = t.plan.tail := by
  unfold Writer.write
  match hp : t.plan with
  | [] => exact .inr ⟨_, rfl, rfl, rfl⟩
  | false :: p => exact .inl ⟨_, _, rfl, by simp⟩
  | true :: p => exact .inr ⟨_, rfl, rfl, rfl⟩

theorem writerLoop_writer (addr step : Nat) (hstep : 0 < step) (todo : Nat) : ∀ (pieces : List Nat) (body : Bytes)
    (t : Writer) r t', writerLoop writer addr pieces body step todo t = (r, t') →
    (r = .ok () → todo ≤ body.length ∧ t'.got = t.got ++ body.take todo) ∧
    (false ∉ t.plan → todo ≤ body.length → r = .ok ()) := by
  induction todo using Nat.strongRecOn with
  | ind todo ih =>
    intro pieces body t r t' h
    unfold writerLoop at h
    by_cases h0 : todo = 0
    · subst h0
      simp only [dif_pos] at h
      cases h
      exact ⟨fun _ => ⟨Nat.zero_le _, by simp⟩, fun _ _ => rfl⟩
    · rw [dif_neg h0] at h
      simp only at h
      generalize hk : min (min todo step) (min body.length (pieces.headD todo + 1)) = k at h
      by_cases hk0 : k = 0
      · rw [dif_pos hk0] at h
        cases h
        exact ⟨by simp, fun _ hle => by omega⟩
      · rw [dif_neg hk0] at h
        rcases writer_write t addr (body.take k) with ⟨e, t1, hx, hm⟩ | ⟨t1, hx, hg, hpl⟩
        · rw [show writer.write t addr (body.take k) = _ from hx] at h
          cases h
          exact ⟨by simp, fun hn => absurd hm hn⟩
        · rw [show writer.write t addr (body.take k) = _ from hx] at h
          obtain ⟨i1, i2⟩ := ih (todo - k) (by omega) _ _ _ _ _ h
          rw [List.length_drop] at i1 i2
          refine ⟨fun hok => ?_, fun hn hle => i2 (by rw [hpl]; exact fun h => hn (List.mem_of_mem_tail h)) (by omega)⟩
          obtain ⟨j1, j2⟩ := i1 hok
          refine ⟨by omega, ?_⟩
          rw [j2, hg, List.append_assoc]
          congr 1
          have : todo = k + (todo - k) := by omega
          conv_rhs => rw [this, List.take_add]

end Imageio.HttpBackend
