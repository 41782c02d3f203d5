import Verif.Spec.Disk
/-!
Specification of a history of requests on one image: what is known about every byte.
-/
namespace Imageio.Spec

/-- What a client knows about the effect of one request, from the request and the status it
received. -/
inductive Event
  /-- a successful upload -/
  | wrote (off : Nat) (data : Bytes)
  /-- a successful zero request -/
  | zeroed (off n : Nat)
  /-- a request about these bytes that was not reported as successful -/
  | unknown (off n : Nat)

/-- The bytes that an event is about. -/
def Event.Covers (e : Event) (i : Nat) : Prop :=
  match e with
  | .wrote off data => off ≤ i ∧ i < off + data.length
  | .zeroed off n => off ≤ i ∧ i < off + n
  | .unknown off n => off ≤ i ∧ i < off + n

/-- After the events, byte `i` has value `v`: the value given by the last event that covers
it, or the original one.  There is no value when the last event covering it is unknown. -/
inductive Last (d0 : Nat → Byte) : List Event → Nat → Byte → Prop
  | original (i : Nat) : Last d0 [] i (d0 i)
  | wrote {evs : List Event} {off : Nat} {data : Bytes} {i : Nat} (h1 : off ≤ i)
      (h2 : i < off + data.length) : Last d0 (evs ++ [.wrote off data]) i (byteAt data (i - off))
  | zeroed {evs : List Event} {off n i : Nat} (h1 : off ≤ i) (h2 : i < off + n) :
      Last d0 (evs ++ [.zeroed off n]) i 0
  | skip {evs : List Event} {e : Event} {i : Nat} {v : Byte} (h : ¬ e.Covers i)
      (hl : Last d0 evs i v) : Last d0 (evs ++ [e]) i v

end Imageio.Spec
