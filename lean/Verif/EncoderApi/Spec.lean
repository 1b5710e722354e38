import Verif.EncoderApi.Model

/-!
# What the encoder and decoder promise

Histories: events and, for every event, what the user or the pipeline saw.
-/

namespace Verif.EncoderApi

open ApiConfig (Iface Proto Fec ifaceFromUser protoFromUser)

/-- Protocols of the audio interfaces and their FEC scheme, from the documentation
(public_api/include/roc/config.h, `roc_protocol` and `roc_interface`). -/
def fits : Iface → Proto → Option Fec
  | .audioSource, .rtp => some .none
  | .audioSource, .rtpRs8mSource => some .rs8m
  | .audioRepair, .rs8mRepair => some .rs8m
  | .audioSource, .rtpLdpcSource => some .ldpc
  | .audioRepair, .ldpcRepair => some .ldpc
  | _, _ => none

/-- The protocol is allowed for the interface after what happened: RTCP for the control interface; an encoder
takes the protocols of its FEC scheme, a decoder those of the scheme of the other audio interface, if this is
activated. Schemes have to be compiled in. -/
def Allowed (c : Conf) (ls : List Log) (i : Iface) (p : Proto) : Prop :=
  (i = .audioControl ∧ p = .rtcp)
    ∨ ∃ f, fits i p = some f ∧ (f = .none ∨ c.supp f = true)
      ∧ match c.kind with
        | .encoder s => f = s
        | .decoder => ∀ j q, Log.activated j q ∈ ls → j ≠ .audioControl → fits j q = some f

/-- The user called `activate` for this interface with an existing protocol. -/
def attempted (es : List Ev) (i : Iface) : Bool :=
  es.any fun
    | .activate f p _ => decide (ifaceFromUser f = some i) && (protoFromUser p).isSome
    | _ => false

/-- `activate` returned zero for this interface. -/
def active (ls : List Log) (i : Iface) : Bool :=
  ls.any fun
    | .activated j _ => decide (j = i)
    | _ => false

/-- Packets the pipeline wrote to the endpoint. -/
def wrote (i : Iface) (ls : List Log) : List Bytes :=
  ls.filterMap fun
    | .wrote j b => if j = i then some b else none
    | _ => none

/-- Packets the user got. -/
def popped (i : Iface) (ls : List Log) : List Bytes :=
  ls.filterMap fun
    | .popped j b => if j = i then some b else none
    | _ => none

/-- Packets accepted from the user. -/
def pushed (i : Iface) (ls : List Log) : List Bytes :=
  ls.filterMap fun
    | .pushed j b => if j = i then some b else none
    | _ => none

/-- Inbound packets the pipeline got. -/
def took (i : Iface) (ls : List Log) : List Bytes :=
  ls.filterMap fun
    | .took j b => if j = i then some b else none
    | _ => none

/-- The user always gives a buffer for a packet of the maximum size. -/
def bigBuffers (c : Conf) (es : List Ev) : Prop :=
  ∀ f n, Ev.pop f (some (some n)) ∈ es → c.maxSize ≤ n

/-- Packets of the pipeline are in buffers of the packet factory (roc_packet/packet_factory.cpp:51-53). -/
def packetsFit (c : Conf) (es : List Ev) : Prop :=
  ∀ i b, Ev.produce i b ∈ es → b.length ≤ c.maxSize

/-- No interface is activated again after a call for it that had valid numbers and failed. -/
def noRetry (c : Conf) (es : List Ev) : Prop :=
  ∀ es₁ f p e es₂ n ls i, es = es₁ ++ Ev.activate f p e :: es₂ → c.run .init es₁ = some (n, ls) →
    ifaceFromUser f = some i → (protoFromUser p).isSome = true → attempted es₁ i = true → active ls i = true

end Verif.EncoderApi
