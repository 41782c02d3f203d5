import Verif.Model.Live

/-!
Downloads in the server of `Model/Live.lean`: the calls of `ops.Read` interleave with the system calls of the operations that change
the images, and with everything else.

Simplified: the range is given (`handlers/images.py:89-116` is in `Model/System.lean`); writing to the response is not a step of
its own, since no other thread sees it.
-/
namespace Imageio.LiveRead
open Imageio.Live

/-- What a thread that reads still has to do: it ended, with the bytes that were written to the response, or it calls the
backend.  The calls of `ops.py:90-110`. -/
inductive RProg where
  | done (r : Except Err Unit) (out : Bytes)
  | seek (n : Nat) (k : Except Err Unit → RProg)
  | tell (k : Nat → RProg)
  | readinto (n : Nat) (k : Except Err Bytes → RProg)

/-- The attributes of `ops.Read` besides the backend: the buffer, what was written to the response, and `_done`.  `ops.py:27-33`, `85-88`. -/
structure RState where
  buf : Bytes
  out : Bytes
  done : Int
  chunks : Nat

/-- `Read._read_chunk`, `ops.py:98-121`; `k` is the rest of `_run`.  See `Ops.readChunk`. -/
def readChunk (bs : Nat) (cancel sink : Nat → Bool) (size : Int) (skip : Nat) (st : RState) (k : Except Err Unit → RState → RProg) : RProg :=
  .tell fun pos =>
  if pos % bs ≠ 0 then k (.error (.partialContent size st.done)) st
  else
    let todo := size - st.done
    let alignedTodo := roundUp todo bs
    .readinto (pySlice st.buf 0 alignedTodo).length fun r =>
    match r with
    | .error e => k (.error e) st
    | .ok data =>
      let st := { st with buf := data ++ st.buf.drop data.length }
      if data.length = 0 then k (.error (.partialContent size st.done)) st
      else
        let n : Int := min ((data.length : Int) - skip) todo
        if sink st.chunks then k (.error (.exception "write to client")) st
        else
          let st' := { st with out := st.out ++ pySlice st.buf skip (skip + n), done := st.done + n, chunks := st.chunks + 1 }
          if cancel st.chunks then k (.error .canceled) st' else k (.ok ()) st'

/-- The loop of `Read._run`, `ops.py:95-96`. -/
def readChunks (bs : Nat) (cancel sink : Nat → Bool) (size : Int) : (fuel : Nat) → RState → RProg
  | fuel, st =>
    if size - st.done = 0 then .done (.ok ()) st.out
    else
      match fuel with
      | 0 => .done (.error .stuck) st.out
      | fuel + 1 =>
        readChunk bs cancel sink size 0 st fun r st =>
        match r with
        | .error e => .done (.error e) st.out
        | .ok () => readChunks bs cancel sink size fuel st

/-- `Read._run`, `ops.py:90-96`. -/
def readRun (bs : Nat) (cancel sink : Nat → Bool) (buf : Bytes) (size : Int) (offset : Nat) : RProg :=
  let skip := offset % bs
  .seek (offset - skip) fun r =>
  match r with
  | .error e => .done (.error e) []
  | .ok () =>
    let st : RState := ⟨buf, [], 0, 0⟩
    if skip ≠ 0 then
      readChunk bs cancel sink size skip st fun r st =>
      match r with
      | .error e => .done (.error e) st.out
      | .ok () => readChunks bs cancel sink size (size.natAbs + 1) st
    else readChunks bs cancel sink size (size.natAbs + 1) st

/-- Running it without other threads: `ops.py:90-110`. -/
def RProg.run {σ : Type} (B : Backend σ) : RProg → σ → Except Err Unit × Bytes × σ
  | .done r out, s => (r, out, s)
  | .seek n k, s => (k (B.seek s n).1).run B (B.seek s n).2
  | .tell k, s => (k (B.tell s)).run B s
  | .readinto n k, s => (k (B.readinto s n).1).run B (B.readinto s n).2

/-- A download: the range, when the operation finds itself canceled and when the client is gone, and the buffer of the context
(`backends/__init__.py:27-37`).  `handlers/images.py:135-141`. -/
structure RJob where
  offset : Nat
  size : Int
  cancel : Nat → Bool
  sink : Nat → Bool
  buf : Bytes

/-- The operation.  `handlers/images.py:135-141`. -/
def RJob.prog (bs : Nat) (j : RJob) : RProg := readRun bs j.cancel j.sink j.buf j.size j.offset

/-- A download that ended: the connection, the ticket object, the operation, the url, the request, the bytes that were written to the response, and if
the operation succeeded.  Not part of the code: what can be seen from outside of `handlers/images.py:80-148`. -/
structure Sent where
  con : Nat
  ticket : Nat
  op : Nat
  url : Http.Str
  job : RJob
  out : Bytes
  ok : Bool

/-- The server: `Model/Live.lean`, the download that every connection was asked for (`handlers/images.py:143`), what its thread still
has to do, and the downloads that ended. -/
structure Sys (σ Γ τ : Type) where
  live : Live σ Γ τ
  reading : Nat → Option RJob
  rprog : Nat → RProg
  sent : List Sent

/-- The server after its start.  `auth.py:388-392`. -/
def start {σ Γ τ : Type} (E : Env σ Γ τ) (mem : Http.Str → Γ) : Sys σ Γ τ :=
  { live := Live.start E mem, reading := fun _ => none, rprog := fun _ => .done (.ok ()) [], sent := [] }

/-- The steps: those of `Model/Live.lean` (not `look`), `get`: a request to download, `read`: the next call of a running download.  Threads of
`http.py:63`; the code of the steps is cited in `step`. -/
inductive Act (τ : Type) where
  | live (a : Live.Act τ)
  | get (con : Nat) (id : String) (job : RJob)
  | read (con : Nat)

/-- The thread has returned from the operation.  `auth.py:177-181`. -/
def returned : RProg → Bool
  | .done _ _ => true
  | _ => false

/-- What was written to the response, and if the operation returned without an error.  `auth.py:177`. -/
def result : RProg → Bytes × Bool
  | .done (.ok ()) out => (out, true)
  | .done (.error _) out => (out, false)
  | _ => ([], false)

/-- The connection that takes the step.  A thread for each connection, `http.py:63`. -/
def conOf {τ : Type} : Live.Act τ → Option Nat
  | .auth a => System.conOf a
  | .add _ _ => none
  | .request c _ _ => some c
  | .call c => some c
  | .look c _ => some c

/-- What a step of `Model/Live.lean` to `t`, of a connection that was asked for the download `j`, means for it.  `handlers/images.py:105-148`. -/
def proceed {σ Γ τ : Type} (E : Env σ Γ τ) (s : Sys σ Γ τ) (t : Live σ Γ τ) (c : Nat) (j : RJob) (a : Live.Act τ) : Option (Sys σ Γ τ) :=
  let s' := { s with live := t }
  let idle := { s' with reading := Auth.upd s.reading c none }
  match a, (s.live.auth.conns c).pc with
  /- `ticket.run`, `auth.py:175`, `193-199`, after the checks `handlers/images.py:112-116`, `validate.py:65-73`. -/
  | .auth (.startOp _ offset), .ready r _ =>
    if offset ≠ j.offset ∨ System.sizeOf s.live.auth r < j.offset + j.size then none
    else if (t.auth.conns c).pc = .idle then some idle
    else some { s' with rprog := Auth.upd s.rprog c (j.prog E.B.blockSize) }
  /- Looking at the cancel flag, `ops.py:120-121`. -/
  | .auth (.check _), .checking _ _ _ =>
    match (t.auth.conns c).pc with
    | .ended _ _ _ => if returned (s.rprog c) then some s' else none
    | _ => some s'
  /- The operation returned or raised, `auth.py:177-181`. -/
  | .auth (.endOp _), _ => if returned (s.rprog c) then some s' else none
  /- `ticket.run` ends, `auth.py:178-181`, `201-222`. -/
  | .auth (.removeOp _), .ended r i k =>
    some { idle with sent := s.sent ++ [⟨c, r, i, s.live.url (s.live.auth.ctxs k).ticket, j, (result (s.rprog c)).1,
      (result (s.rprog c)).2 && (t.auth.conns c).pc ≠ .idle⟩] }
  /- The request was refused before the operation, `handlers/images.py:105-110`, or the thread goes on. -/
  | _, _ => if (t.auth.conns c).pc = .idle then some idle else some s'

/-- One step of the server, of a thread of `http.py:63`; `none` if this step cannot be taken now. -/
def step {σ Γ τ : Type} (E : Env σ Γ τ) (s : Sys σ Γ τ) : Act τ → Option (Sys σ Γ τ)
  /- A step of a thread, `http.py:63`. -/
  | .live (.look _ _) => none
  | .live a =>
    match Live.step E s.live a with
    | none => none
    | some t =>
      match conOf a with
      | none => some { s with live := t }
      | some c =>
        match s.reading c with
        | none => some { s with live := t }
        | some j => proceed E s t c j a
  /- `self.auth.authorize`, `handlers/images.py:105-110`, `auth.py:427-451`. -/
  | .get c id j =>
    match Live.step E s.live (.auth (.request c id "read")) with
    | none => none
    | some t =>
      if (t.auth.conns c).pc = .idle then some { s with live := t }
      else some { s with live := t, reading := Auth.upd s.reading c (some j) }
  /- The next call of `ops.Read`: it sees the storage as it is now.  `ops.py:90-110`, with the backend of the context, that was opened with the
  url of its ticket (`backends/__init__.py:97`). -/
  | .read c =>
    match s.reading c, (s.live.auth.conns c).pc with
    | some _, .running _ _ k =>
      let v := E.M.view (s.live.loc k) (s.live.mem (s.live.url (s.live.auth.ctxs k).ticket))
      let next : Option (Query × RProg) :=
        match s.rprog c with
        | .done _ _ => none
        | .seek n f => some (.seek n, f (E.B.seek v n).1)
        | .tell f => some (.tell, f (E.B.tell v))
        | .readinto n f => some (.readinto n, f (E.B.readinto v n).1)
      match next with
      | none => none
      | some (q, p) =>
        match Live.step E s.live (.look c q) with
        | none => none
        | some t => some { s with live := t, rprog := Auth.upd s.rprog c p }
    | _, _ => none

/-- The state after a list of steps: an interleaving of the threads of `http.py:63`. -/
def run {σ Γ τ : Type} (E : Env σ Γ τ) (s : Sys σ Γ τ) : List (Act τ) → Option (Sys σ Γ τ)
  | [] => some s
  | a :: as =>
    match step E s a with
    | none => none
    | some s' => run E s' as

end Imageio.LiveRead
