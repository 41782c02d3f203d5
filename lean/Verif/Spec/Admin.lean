import Verif.Spec.Tickets
import Verif.Model.Admin

/-!
What the calls of the admin client mean: operations on a map of tickets and on a profiler, without
HTTP.  Uses the types of the model (JSON documents, tickets, calls), not its functions.
-/
namespace Imageio.Spec.Admin
open Imageio.Images Imageio.Admin Imageio.Spec.Tickets

/-- An id that means itself in a URL: printable ASCII characters without `?` and `%`.  All UUIDs
are plain. -/
def Plain (id : List Char) : Prop :=
  id ≠ [] ∧ ∀ c ∈ id, 0x20 < c.toNat ∧ c.toNat < 0x7f ∧ c ≠ '?' ∧ c ≠ '%'

/-- The JSON functions: documents are read back, also with a newline at the end, and a part of a
document is not an object. -/
structure Codec (dumps : Json → Bytes) (loads : Bytes → Option Json) : Prop where
  roundtrip : ∀ j, loads (dumps j) = some j
  line : ∀ j, loads (dumps j ++ [10]) = some j
  cut : ∀ j k d, k < (dumps j).length → loads ((dumps j).take k) ≠ some (.obj d)

/-- The circumstances of a call. -/
structure Env where
  netlocOk : List Char → Bool
  urlText : Url.Parsed → List Char
  inactivity : Int
  now : Int
  /-- the server waits for ongoing operations of a ticket to be removed -/
  waits : Bool
  /-- ongoing operations end while the server waits -/
  released : Bool
  profiler : Bool

/-- The report about a ticket. -/
def Reports (env : Env) (t : Ticket) (d : List (List Char × Json)) : Prop :=
  Field d "uuid" (.str t.fields.uuid) ∧
  Field d "size" (.int t.fields.size) ∧
  Field d "ops" (.arr t.fields.ops) ∧
  Field d "timeout" (.int t.fields.timeout) ∧
  Field d "inactivity_timeout" (.int t.fields.inactivityTimeout) ∧
  Field d "url" (.str (env.urlText t.fields.url)) ∧
  Field d "sparse" (.bool t.fields.sparse) ∧
  Field d "dirty" (.bool t.fields.dirty) ∧
  Field d "active" (.bool t.active) ∧
  Field d "canceled" (.bool t.canceled) ∧
  Field d "connections" (.int t.connections) ∧
  Field d "expires" (.int t.expires) ∧
  Field d "idle_time" (.int (if t.active then 0 else env.now - t.access)) ∧
  (t.fields.transferId ≠ [] → Field d "transfer_id" (.str t.fields.transferId)) ∧
  (t.fields.transferId = [] → Absent d "transfer_id") ∧
  (∀ f, t.fields.filename = some f → f ≠ [] → Field d "filename" (.str f)) ∧
  (t.fields.filename = none ∨ t.fields.filename = some [] → Absent d "filename") ∧
  (t.fields.ops.length ≤ 1 → Field d "transferred" (.int t.transferred)) ∧
  (1 < t.fields.ops.length → Absent d "transferred")

/-- The result of a call. -/
inductive Result where
  | done
  | info (d : List (List Char × Json))
  | refused (code : Nat)

/-- The map with one entry changed. -/
def Changed (m m' : List Char → Option Ticket) (id : List Char) (t : Option Ticket) : Prop :=
  m' id = t ∧ ∀ x, x ≠ id → m' x = m x

/-- A valid change of the timeout: an object with a number that is not negative. -/
def NewTimeout (changes : Json) (t : Int) : Prop :=
  ∃ d v, changes = .obj d ∧ Field d "timeout" v ∧ IntLike v t ∧ 0 ≤ t

/-- What a call does: the server before the call, the result, and the server after it. -/
inductive Does (env : Env) (s : Server) : Call → Result → Server → Prop
  | added {msg t m} (hv : Valid env.netlocOk env.inactivity msg t)
      (hm : Changed s.store m t.uuid
        (some { fields := t, expires := env.now + t.timeout, access := env.now, active := false,
                canceled := false, connections := 0, transferred := 0 })) :
      Does env s (.add msg) .done { s with store := m }
  | invalid {msg} (hv : ∀ t, ¬ Valid env.netlocOk env.inactivity msg t) :
      Does env s (.add msg) (.refused 400) s
  | shown {id t d} (ht : s.store id = some t) (hr : Reports env t d) :
      Does env s (.get id) (.info d) s
  | missing {id} (ht : s.store id = none) : Does env s (.get id) (.refused 404) s
  | changed {id ch t n m} (ht : s.store id = some t) (hn : NewTimeout ch n)
      (hm : Changed s.store m id (some { t with expires := env.now + n })) :
      Does env s (.mod id ch) .done { s with store := m }
  | changeMissing {id ch n} (ht : s.store id = none) (hn : NewTimeout ch n) :
      Does env s (.mod id ch) (.refused 404) s
  | badChange {id d} (hn : ∀ n, ¬ NewTimeout (.obj d) n) :
      Does env s (.mod id (.obj d)) (.refused 400) s
  | notObject {id ch} (hn : ∀ d, ch ≠ .obj d) : Does env s (.mod id ch) (.refused 500) s
  | gone {id} (ht : s.store id = none) : Does env s (.del id) .done s
  | removed {id t m} (ht : s.store id = some t)
      (hr : t.active = false ∨ (env.waits = true ∧ env.released = true))
      (hm : Changed s.store m id none) : Does env s (.del id) .done { s with store := m }
  | busy {id t m} (ht : s.store id = some t) (ha : t.active = true) (hw : env.waits = true)
      (hr : env.released = false) (hm : Changed s.store m id (some { t with canceled := true })) :
      Does env s (.del id) (.refused 409) { s with store := m }
  /-- without waiting an active ticket is canceled but not removed -/
  | canceled {id t m} (ht : s.store id = some t) (ha : t.active = true) (hw : env.waits = false)
      (hm : Changed s.store m id (some { t with canceled := true })) :
      Does env s (.del id) .done { s with store := m }
  | started (hp : env.profiler = true) (hr : s.profiler = none) :
      Does env s .startProfile .done { s with profiler := some ['c', 'p', 'u'] }
  | running {c} (hp : env.profiler = true) (hr : s.profiler = some c) :
      Does env s .startProfile (.refused 400) s
  | stopped {c} (hp : env.profiler = true) (hr : s.profiler = some c) :
      Does env s .stopProfile .done { s with profiler := none, saved := s.saved ++ [c] }
  | notRunning (hp : env.profiler = true) (hr : s.profiler = none) :
      Does env s .stopProfile (.refused 400) s
  | noProfilerStart (hp : env.profiler = false) : Does env s .startProfile (.refused 404) s
  | noProfilerStop (hp : env.profiler = false) : Does env s .stopProfile (.refused 404) s

/-- The calls with plain ids. -/
def PlainCall : Call → Prop
  | .add (.obj d) => ∃ id, Field d "uuid" (.str id) ∧ Plain id
  | .add _ => False
  | .get id => Plain id
  | .mod id _ => Plain id
  | .del id => Plain id
  | _ => True

/-- The ticket that a call is about, if any. -/
inductive About : Call → List Char → Prop
  | add {d id} (h : Field d "uuid" (.str id)) : About (.add (.obj d)) id
  | get {id} : About (.get id) id
  | mod {id ch} : About (.mod id ch) id
  | del {id} : About (.del id) id

/-- A sequence of calls, each under its own circumstances. -/
inductive Run : Server → List (Env × Call) → List Result → Server → Prop
  | nil {s} : Run s [] [] s
  | cons {s env a r s1 l rs s2} (h : Does env s a r s1) (hr : Run s1 l rs s2) :
      Run s ((env, a) :: l) (r :: rs) s2

/-- What a command of the tool asks for. -/
inductive Command : Cmd → Call → Prop
  | add {t} : Command (.addTicket t) (.add t)
  | show {id} : Command (.showTicket id) (.get id)
  | mod {id n} : Command (.modTicket id (some n)) (.mod id (.obj [("timeout".toList, .int n)]))
  | mod_none {id} : Command (.modTicket id none) (.mod id (.obj [("timeout".toList, .null)]))
  | del {id} : Command (.delTicket id) (.del id)
  | start : Command .startProfile .startProfile
  | stop : Command .stopProfile .stopProfile

end Imageio.Spec.Admin
