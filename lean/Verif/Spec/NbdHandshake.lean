import Verif.Spec.Nbd
/-!
The fixed newstyle handshake of the NBD protocol
(https://github.com/NetworkBlockDevice/nbd/blob/master/doc/proto.md), written as encoders of what a
server sends and of what a client must send.
-/
namespace Imageio.Spec

/-- A string on the wire. -/
def utf8 (s : String) : Bytes := s.toUTF8.data.toList

/-- An option of the client: magic, option, length, data. -/
def optionWire (opt : Nat) (data : Bytes) : Bytes :=
  be 8 0x49484156454F5054 ++ (be 4 opt ++ (be 4 data.length ++ data))

/-- A reply of the server to an option: magic, option, type, length, data. -/
def optionReply (opt type : Nat) (data : Bytes) : Bytes :=
  be 8 0x3e889045565a9 ++ (be 4 opt ++ (be 4 type ++ (be 4 data.length ++ data)))

/-- NBD_OPT_GO, NBD_OPT_STRUCTURED_REPLY, NBD_OPT_LIST_META_CONTEXT, NBD_OPT_SET_META_CONTEXT. -/
def optGo : Nat := 7
def optStructured : Nat := 8
def optList : Nat := 9
def optSet : Nat := 10

/-- The answer of a server that does not know the option, with a message. -/
def unsupported (opt : Nat) (message : Bytes) : Bytes := optionReply opt (2 ^ 31 + 1) message

/-- The answer of a server to a question about meta contexts: the contexts with their ids, and how
the answer ends: with NBD_REP_ACK, or with NBD_REP_ERR_UNSUP and a message. -/
structure ContextsAnswer where
  contexts : List (String × Nat)
  refused : Option Bytes
deriving DecidableEq, Repr

/-- One context on the wire, NBD_REP_META_CONTEXT. -/
def contextWire (opt : Nat) (c : String × Nat) : Bytes := optionReply opt 4 (be 4 c.2 ++ utf8 c.1)

/-- The end of an answer. -/
def endWire (opt : Nat) : Option Bytes → Bytes
  | none => optionReply opt 1 []
  | some message => unsupported opt message

def ContextsAnswer.wire (opt : Nat) (a : ContextsAnswer) : Bytes :=
  a.contexts.flatMap (contextWire opt) ++ endWire opt a.refused

/-- An information about the export: NBD_INFO_EXPORT, NBD_INFO_BLOCK_SIZE, or another one. -/
inductive Info where
  | export_ (size flags : Nat)
  | blockSize (minimum preferred maximum : Nat)
  | other (type : Nat) (data : Bytes)
deriving DecidableEq, Repr

/-- The data of NBD_REP_INFO. -/
def Info.data : Info → Bytes
  | .export_ size flags => be 2 0 ++ (be 8 size ++ be 2 flags)
  | .blockSize a b c => be 2 3 ++ (be 4 a ++ (be 4 b ++ be 4 c))
  | .other type data => be 2 type ++ data

def Info.wire (i : Info) : Bytes := optionReply optGo 3 i.data

/-- What a server answers.  `structured` is `none` if it supports structured replies, or the message
of the refusal. -/
structure Handshake where
  flags : Nat
  structured : Option Bytes
  list : ContextsAnswer
  set : ContextsAnswer
  infos : List Info
deriving DecidableEq, Repr

/-- The greeting: magic, the magic of the newstyle negotiation, and flags. -/
def greeting (flags : Nat) : Bytes :=
  be 8 0x4e42444d41474943 ++ (be 8 0x49484156454F5054 ++ be 2 flags)

/-- The answers about meta contexts; the first one only if the client asked for dirty bitmaps. -/
def Handshake.contextsWire (h : Handshake) (dirty : Bool) : Bytes :=
  (if dirty then h.list.wire optList else []) ++ h.set.wire optSet

/-- Everything the server sends during the handshake. -/
def Handshake.wire (h : Handshake) (dirty : Bool) : Bytes :=
  greeting h.flags ++ (endWire optStructured h.structured ++
    ((if h.structured = none then h.contextsWire dirty else []) ++
      (h.infos.flatMap Info.wire ++ endWire optGo none)))

/-- The dirty bitmap that the client can use: the server has exactly one. -/
def Handshake.bitmap (h : Handshake) (dirty : Bool) : Option String :=
  match dirty, h.list.contexts with
  | true, [c] => if c.1 = "" then none else some c.1
  | _, _ => none

/-- The contexts that the client wants. -/
def Handshake.queries (h : Handshake) (dirty : Bool) : List String :=
  ["base:allocation", "qemu:allocation-depth"] ++ (h.bitmap dirty).toList

/-- The values that have a place on the wire. -/
def ContextsAnswer.Fits (a : ContextsAnswer) : Prop :=
  (∀ c ∈ a.contexts, c.2 < 2 ^ 32 ∧ (utf8 c.1).length + 4 < 2 ^ 32) ∧ (∀ m ∈ a.refused, m.length < 2 ^ 32)

instance (a : ContextsAnswer) : Decidable a.Fits := by unfold ContextsAnswer.Fits; infer_instance

def Info.Fits : Info → Prop
  | .export_ size flags => size < 2 ^ 64 ∧ flags < 2 ^ 16
  | .blockSize a b c => a < 2 ^ 32 ∧ b < 2 ^ 32 ∧ c < 2 ^ 32
  | .other type data => type < 2 ^ 16 ∧ type ≠ 0 ∧ type ≠ 3 ∧ data.length + 2 < 2 ^ 32

instance (i : Info) : Decidable i.Fits := by cases i <;> unfold Info.Fits <;> infer_instance

/-- The last information about the export. -/
def Handshake.export_ (h : Handshake) : Option (Nat × Nat) :=
  h.infos.foldl (fun r i => match i with | .export_ size flags => some (size, flags) | _ => r) none

/-- The last information about block sizes, or the default of the protocol: minimum, preferred and
maximum. -/
def Handshake.blockSizes (h : Handshake) : Nat × Nat × Nat :=
  h.infos.foldl (fun r i => match i with | .blockSize a b c => (a, b, c) | _ => r) (1, 4096, 32 * 2 ^ 20)

/-- The handshakes of the protocol: the server has the fixed newstyle flag, the values fit, only
wanted contexts are selected, and the export is described. -/
structure Handshake.Valid (h : Handshake) (dirty : Bool) : Prop where
  flags : h.flags < 2 ^ 16 ∧ h.flags % 2 = 1
  structured : ∀ m ∈ h.structured, m.length < 2 ^ 32
  list : h.structured = none → dirty = true → h.list.Fits
  set : h.structured = none → h.set.Fits
  wanted : h.structured = none → ∀ c ∈ h.set.contexts, c.1 ∈ h.queries dirty
  infos : ∀ i ∈ h.infos, i.Fits
  described : h.export_.isSome

/-- The data of the questions about meta contexts: the name of the export, and the queries. -/
def metaData (name : String) (queries : List String) : Bytes :=
  be 4 (utf8 name).length ++ (utf8 name ++ (be 4 queries.length ++
    queries.flatMap fun q => be 4 (utf8 q).length ++ utf8 q))

/-- The data of NBD_OPT_GO without information requests. -/
def goData (name : String) : Bytes := be 4 (utf8 name).length ++ (utf8 name ++ be 2 0)

/-- The data of the options fits in the length fields. -/
def Handshake.Sendable (h : Handshake) (dirty : Bool) (name : String) : Prop :=
  (goData name).length < 2 ^ 32 ∧
  (h.structured = none → (∀ q ∈ h.queries dirty, (utf8 q).length < 2 ^ 32) ∧
    (metaData name (h.queries dirty)).length < 2 ^ 32 ∧
    (dirty = true → (metaData name ["qemu:dirty-bitmap:"]).length < 2 ^ 32))

instance (h : Handshake) (dirty : Bool) (name : String) : Decidable (h.Sendable dirty name) := by
  unfold Handshake.Sendable; infer_instance

/-- The contexts that the server selected. -/
def Handshake.selected (h : Handshake) : List (String × Nat) :=
  if h.structured = none then h.set.contexts else []

/-- What the client sends: its flags, and the options. -/
def Handshake.clientWire (h : Handshake) (dirty : Bool) (name : String) : Bytes :=
  be 4 1 ++ (optionWire optStructured [] ++
    ((if h.structured = none then
        (if dirty then optionWire optList (metaData name ["qemu:dirty-bitmap:"]) else []) ++
        optionWire optSet (metaData name (h.queries dirty))
      else []) ++
      optionWire optGo (goData name)))

end Imageio.Spec
