import Verif.Model.Response

/-!
How a client reads a response (RFC 7230), and what a handler says with its actions.
-/
namespace Imageio.Spec.Wire
open Imageio.Http Imageio.Images Imageio.Response

/-- The first line and the rest.  A line ends with LF, and a CR before it is ignored (section 3.5). -/
def line : Bytes → Option (Bytes × Bytes)
  | [] => none
  | b :: rest =>
    if b = 10 then some ([], rest)
    else if b = 13 ∧ rest.head? = some 10 then some ([], rest.tail)
    else (line rest).map fun x => (b :: x.1, x.2)

/-- Optional white space: space and tab. -/
def ows (b : Byte) : Bool := b == 32 || b == 9

/-- Without the white space around it. -/
def trim (b : Bytes) : Bytes := ((b.dropWhile ows).reverse.dropWhile ows).reverse

/-- A number in decimal digits. -/
def number (d : Bytes) : Option Nat :=
  if d ≠ [] ∧ ∀ b ∈ d, 48 ≤ b ∧ b ≤ 57 then some (d.foldl (fun n b => 10 * n + (b.toNat - 48)) 0) else none

/-- The status of a status line: `HTTP/1.1`, three digits, and the reason. -/
def statusOf (l : Bytes) : Option Nat :=
  if l.take 9 = [72, 84, 84, 80, 47, 49, 46, 49, 32] ∧ (l.drop 12).head? = some 32 then
    number ((l.drop 9).take 3)
  else none

/-- The name and value of a header field. -/
def splitField (l : Bytes) : Option (Bytes × Bytes) :=
  let n := l.takeWhile (· ≠ 58)
  if n = [] ∨ n.any ows ∨ 58 ∉ l then none else some (n, trim (l.drop (n.length + 1)))

/-- The fields until the empty line, and what follows it. -/
inductive Fields : Bytes → List (Bytes × Bytes) → Bytes → Prop
  | done {w r : Bytes} (hl : line w = some ([], r)) : Fields w [] r
  | more {w l r r' : Bytes} {f : Bytes × Bytes} {fs : List (Bytes × Bytes)} (hl : line w = some (l, r))
      (hn : l ≠ []) (hf : splitField l = some f) (h : Fields r fs r') : Fields w (f :: fs) r'

/-- The values of the field. -/
def values (fs : List (Bytes × Bytes)) (name : Bytes) : List Bytes :=
  (fs.filter (·.1 = name)).map (·.2)

/-- The length of the body: the only content-length; these responses have no body at all
(section 3.3.3). -/
def bodyLength (code : Nat) (fs : List (Bytes × Bytes)) : Option Nat :=
  match (values fs (encode (lit "content-length"))).map number with
  | [some n] => some (if code = 204 ∨ code = 304 then 0 else n)
  | _ => none

/-- The client receives a complete response: status, fields and body, and the bytes after it.
Informational responses are skipped. -/
inductive Receives : Bytes → Nat → List (Bytes × Bytes) → Bytes → Bytes → Prop
  | info {w l r r' body rest : Bytes} {c code : Nat} {fs fs' : List (Bytes × Bytes)}
      (hl : line w = some (l, r)) (hs : statusOf l = some c) (hc : c < 200) (hf : Fields r fs' r')
      (h : Receives r' code fs body rest) : Receives w code fs body rest
  | final {w l r r' : Bytes} {code n : Nat} {fs : List (Bytes × Bytes)}
      (hl : line w = some (l, r)) (hs : statusOf l = some code) (hc : 200 ≤ code) (hf : Fields r fs r')
      (hn : bodyLength code fs = some n) (hlen : n ≤ r'.length) :
      Receives w code fs (r'.take n) (r'.drop n)

/-- Text that fits in a line. -/
def Clean (s : Str) : Prop := ∀ c ∈ s, c ≠ '\r' ∧ c ≠ '\n'

/-- A name of a field. -/
def Name (s : Str) : Prop := s ≠ [] ∧ ∀ c ∈ s, c ∉ [':', ' ', '\t', '\r', '\n']

/-- The texts of the server fit in lines. -/
structure CleanEnv (env : Env) : Prop where
  reason : ∀ c s, env.reason c = some s → Clean s
  version : Clean env.version
  date : Clean env.date

/-- The handler sets proper fields and statuses; other things are not restricted. -/
def CleanAct : Act → Prop
  | .status code => 200 ≤ code ∧ code < 1000
  | .header name value => Name name ∧ Clean value
  | _ => True

/-- Sending JSON means setting the status and two fields, and writing the text. -/
def plain : List Act → List Act
  | [] => []
  | .json text :: as =>
    [.status 200, .header (lit "content-length") (fmtNat (encode text ++ [10]).length),
      .header (lit "content-type") (lit "application/json"), .write (encode text ++ [10])] ++ plain as
  | a :: as => a :: plain as

/-- What the handler did before it wrote anything. -/
def before (as : List Act) : List Act :=
  (plain as).takeWhile fun a => match a with | .write _ => false | _ => true

/-- The status: the last one that was set. -/
def statusSaid (as : List Act) : Nat :=
  ((as.filterMap fun a => match a with | .status c => some c | _ => none).getLast?).getD 200

/-- The value of a field, given in lower case: the last one that was set. -/
def fieldSaid (name : Str) (as : List Act) : Option Str :=
  (as.filterMap fun a =>
    match a with
    | .header n v => if lower n = name then some v else none
    | .close => if lit "connection" = name then some (lit "close") else none
    | _ => none).getLast?

/-- The value of a field; the content length is 0 if it was not set. -/
def valueSaid (name : Str) (as : List Act) : Option Str :=
  (fieldSaid name as).or (if name = lit "content-length" then some (lit "0") else none)

/-- The bytes written. -/
def bodySaid (as : List Act) : Bytes :=
  (plain as).flatMap fun a => match a with | .write data => data | _ => []

/-- The fields of the client are those of the handler, each once. -/
def FieldsSaid (fs : List (Bytes × Bytes)) (say : Str → Option Str) : Prop :=
  ∀ name, name ≠ lit "server" → name ≠ lit "date" →
    values fs (encode name) = ((say name).map fun v => trim (encode v)).toList

/-- Whether the handler wrote something. -/
def wrote (as : List Act) : Bool := as.any fun a => match a with | .write _ | .json _ => true | _ => false

/-- An error says: its status and text, and that the connection will be closed if the request was not
read. -/
def errorActs (unread : Bool) : Failure → List Act
  | .http code message contentRange =>
    (if unread then [.close] else []) ++
    [.status code, .header (lit "content-type") (lit "text/plain; charset=UTF-8"),
      .header (lit "content-length") (fmtNat (encode message ++ [10]).length)] ++
    (contentRange.map fun v => .header (lit "content-range") v).toList ++
    [.write (encode message ++ [10])]
  | _ =>
    (if unread then [.close] else []) ++
    [.status 500, .header (lit "content-type") (lit "text/plain; charset=UTF-8"),
      .header (lit "content-length")
        (fmtNat (encode (lit "Server failed to perform the request, check logs") ++ [10]).length)] ++
    [.write (encode (lit "Server failed to perform the request, check logs") ++ [10])]

/-- What the client is told: what the handler said, or the error if it failed before it wrote. -/
def told (c : Call) : List Act :=
  match c.raises with
  | none => c.acts
  | some e => if wrote c.acts then c.acts else c.acts ++ errorActs (c.unread == some true) e

/-- The call sets proper fields and statuses. -/
structure CleanCall (c : Call) : Prop where
  acts : ∀ a ∈ c.acts, CleanAct a
  error : ∀ code m r, c.raises = some (.http code m r) → (200 ≤ code ∧ code < 1000) ∧ ∀ v, r = some v → Clean v

/-- The content length is the length of what is written. -/
def Honest (c : Call) : Prop :=
  ∃ n, valueSaid (lit "content-length") (before (told c)) = some (fmtNat n) ∧
    (bodySaid (told c)).length =
      if statusSaid (before (told c)) = 204 ∨ statusSaid (before (told c)) = 304 then 0 else n

/-- The content length is the length of what is written; only a handler that fails may write less. -/
def Announced (c : Call) : Prop :=
  Honest c ∨ wrote c.acts = true ∧ c.raises ≠ none ∧
    statusSaid (before (told c)) ≠ 204 ∧ statusSaid (before (told c)) ≠ 304 ∧
    ∃ n, valueSaid (lit "content-length") (before (told c)) = some (fmtNat n) ∧
      (bodySaid (told c)).length < n

/-- JSON is sent only if nothing was written before. -/
def Orderly (as : List Act) : Prop := ∀ pre text post, as = pre ++ .json text :: post → wrote pre = false

/-- The bytes are a complete response with what the call says, whatever follows. -/
def Complete (c : Call) (d : Bytes) : Prop :=
  ∃ fs, FieldsSaid fs (fun m => valueSaid m (before (told c))) ∧
    ∀ later, Receives (d ++ later) (statusSaid (before (told c))) fs (bodySaid (told c)) later

/-- If the bytes are a complete response, it is what the call says. -/
def NeverWrong (c : Call) (d : Bytes) : Prop :=
  ∀ code fs body rest, Receives d code fs body rest →
    code = statusSaid (before (told c)) ∧ FieldsSaid fs (fun m => valueSaid m (before (told c))) ∧
    body = bodySaid (told c) ∧ rest = []

/-- The bytes of a connection, and whether it is closed: complete responses, one for each call in
order; only the last one may be incomplete, if the connection is closed. -/
inductive Stream : List Call → Bytes → Bool → Prop
  | done : Stream [] [] false
  | next {c : Call} {cs : List Call} {d w : Bytes} {b : Bool} (hd : Complete c d) (h : Stream cs w b) :
      Stream (c :: cs) (d ++ w) b
  | last {c : Call} {cs : List Call} {d : Bytes} (hd : NeverWrong c d) : Stream (c :: cs) d true

end Imageio.Spec.Wire
