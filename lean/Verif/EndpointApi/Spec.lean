import Verif.EndpointApi.Model

/-! # What the documentation of `roc_endpoint` promises (include/roc/endpoint.h) -/

namespace Verif.EndpointApi

open Verif.Pct (Byte ch)
open Verif.EndpointUri (Proto Uri)

/-- A field of the endpoint: never set or unset, set to something that was refused, set. -/
inductive Field (α : Type) where
  | unset
  | invalid
  | val (a : α)
  deriving DecidableEq

/-- What the user knows about an endpoint. The resource is its path, decoded, and its query; both may be empty; nothing if it
is invalid. -/
structure Ep where
  proto : Field Proto
  host : Field (List Byte)
  port : Field Int
  res : Option (List Byte × List Byte)
  deriving DecidableEq

/-- The resource a text denotes: `[/PATH][?QUERY]`, without fragment. -/
def resourceOf (s : List Byte) : Option (List Byte × List Byte) :=
  let path := s.takeWhile (fun c => decide (c ≠ ch '?'))
  let query := (s.dropWhile (fun c => decide (c ≠ ch '?'))).tail
  if (path = [] ∨ path.head? = some (ch '/')) ∧ ch '#' ∉ s ∧ ch '?' ∉ query then
    match Pct.decode path with
    | (true, d) => some (d, query)
    | (false, _) => none
  else none

/-- A URI that was parsed. -/
def Ep.ofUri (v : Uri) : Ep :=
  ⟨match v.proto with | some p => .val p | none => .invalid, .val v.host, if v.port = -1 then .unset else .val v.port,
    some (v.path, v.query)⟩

/-- Every setter sets its field, or makes it invalid, and nothing else. -/
def Ep.step (x : Ep) : Call → Ep × Bool
  | .setUri s =>
    match s.bind EndpointUri.parse with
    | some v => (Ep.ofUri v, true)
    | none => (⟨.invalid, .invalid, .invalid, none⟩, false)
  | .setProtocol (some p) => ({ x with proto := .val p }, true)
  | .setProtocol none => ({ x with proto := .invalid }, false)
  | .setHost s =>
    match s with
    | some (c :: cs) => ({ x with host := .val (c :: cs) }, true)
    | _ => ({ x with host := .invalid }, false)
  | .setPort n =>
    if n = -1 then ({ x with port := .unset }, true)
    else if 0 ≤ n ∧ n ≤ 65535 then ({ x with port := .val n }, true)
    else ({ x with port := .invalid }, false)
  | .setResource none => ({ x with res := some ([], []) }, true)
  | .setResource (some s) =>
    match resourceOf s with
    | some r => ({ x with res := some r }, true)
    | none => ({ x with res := none }, false)

/-- A new endpoint. -/
def Ep.init : Ep := ⟨.unset, .unset, .unset, some ([], [])⟩

/-- The endpoint after some setters. -/
def Ep.after (cs : List Call) : Ep := cs.foldl (fun x c => (x.step c).1) Ep.init

/-- No field is invalid and no mandatory field is missing. -/
def Ep.complete (x : Ep) : Prop :=
  ∃ p h r, x.proto = .val p ∧ x.host = .val h ∧ x.res = some r
    ∧ ((∃ n, x.port = .val n) ∨ (x.port = .unset ∧ 0 < p.defaultPort))
    ∧ (p.pathSupported = true ∨ r = ([], []))

/-- The text begins like a URI with a known scheme. -/
def beginsWithScheme (s : List Byte) : Prop := ∃ p : Proto, p.scheme ++ [ch ':'] <+: s

/-- No setter of a resource is given the beginning of a URI. -/
def Clean (cs : List Call) : Prop := ∀ s, Call.setResource (some s) ∈ cs → ¬ beginsWithScheme s

/-- The protocol is not set while the port is invalid. -/
def Ordered : Ep → List Call → Prop
  | _, [] => True
  | x, c :: cs => (∀ p, c = .setProtocol (some p) → x.port ≠ .invalid) ∧ Ordered (x.step c).1 cs

end Verif.EndpointApi
