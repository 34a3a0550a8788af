import Verif.Views.Model
/-!
# Specification for C120: objects are values

An object is twelve lists of numbers.  There is no heap and there are no spans: copying copies the lists, and
reading or writing concerns the list of the object whose name the span carries.  `none`: the program is not allowed
(use of an object that does not exist or was moved from, index beyond the list).
-/

namespace Verif.Views.Spec

/-- The array a span is named after. -/
def named : Sp → Arr
  | .Rcc => .rcc | .Rss => .rss | .Rsc => .rsc | .Rcs => .rcs
  | .Zsc => .zsc | .Zcs => .zcs | .Zcc => .zcc | .Zss => .zss
  | .Lsc => .lsc | .Lcs => .lcs | .Lcc => .lcc | .Lss => .lss

/-- Number of coefficients in an array: the basis functions that occur for the flags. -/
def count (d : Dim) : Arr → Nat
  | .rcc | .zsc | .lsc => d.num
  | .rss | .zcs | .lcs => if d.lthreed then d.num else 0
  | .rsc | .zcc | .lcc => if d.lasym then d.num else 0
  | .rcs | .zss | .lss => if d.lthreed && d.lasym then d.num else 0

structure Values (V : Type) where
  live : Nat → Bool
  /-- not moved from -/
  usable : Nat → Bool
  dim : Nat → Dim
  vals : Nat → Arr → List V

def init {V : Type} : Values V := ⟨fun _ => false, fun _ => false, fun _ => ⟨0, false, false⟩, fun _ _ => []⟩

def set1 {γ : Type} (f : Nat → γ) (o : Nat) (c : γ) : Nat → γ := fun x => if x = o then c else f x

def step {V : Type} [Zero V] (v : Values V) : Op V → Option (Values V × Option V)
  | .construct o d =>
    if v.live o then none else
    some ({ live := set1 v.live o true, usable := set1 v.usable o true, dim := set1 v.dim o d,
            vals := set1 v.vals o (fun a => List.replicate (count d a) 0) }, none)
  | .copyConstruct o p =>
    if v.live o = false ∧ v.live p then
      some ({ live := set1 v.live o true, usable := set1 v.usable o true, dim := set1 v.dim o (v.dim p),
              vals := set1 v.vals o (v.vals p) }, none)
    else none
  | .copyAssign o p =>
    if v.live o ∧ v.live p then
      some ({ v with usable := if o = p then v.usable else set1 v.usable o true,
                     vals := set1 v.vals o (v.vals p) }, none)
    else none
  | .moveConstruct o p =>
    if v.live o = false ∧ v.live p then
      some ({ live := set1 v.live o true, usable := set1 (set1 v.usable o true) p false,
              dim := set1 v.dim o (v.dim p),
              vals := set1 (set1 v.vals o (v.vals p)) p (fun _ => []) }, none)
    else none
  | .moveAssign o p =>
    if v.live o ∧ v.live p then
      if o = p then some (v, none) else
      some ({ v with usable := set1 (set1 v.usable o true) p false,
                     vals := set1 (set1 v.vals o (v.vals p)) p (v.vals o) }, none)
    else none
  | .destroy o =>
    if v.live o then
      some ({ v with live := set1 v.live o false, vals := set1 v.vals o (fun _ => []) }, none)
    else none
  | .store o f i x =>
    if v.live o ∧ v.usable o ∧ i < (v.vals o (named f)).length then
      some ({ v with vals := fun q a =>
        if q = o ∧ a = named f then (v.vals o a).set i x else v.vals q a }, none)
    else none
  | .load o f i =>
    if v.live o ∧ v.usable o then
      match (v.vals o (named f))[i]? with
      | none => none
      | some x => some (v, some x)
    else none

def run {V : Type} [Zero V] (v : Values V) : List (Op V) → Option (Values V × List V)
  | [] => some (v, [])
  | op :: rest =>
    match step v op with
    | none => none
    | some (v', x) => match run v' rest with
      | none => none
      | some (v'', xs) => some (v'', x.toList ++ xs)

/-- Assignments only between objects of the same sizes. -/
def SameSizes {V : Type} (v : Values V) : Op V → Prop
  | .copyAssign o p => v.dim o = v.dim p ∧ v.usable p = true
  | .moveAssign o p => v.dim o = v.dim p ∧ v.usable p = true
  | .copyConstruct _ p => v.usable p = true
  | .moveConstruct _ p => v.usable p = true
  | _ => True

/-- The same for a whole program. -/
def AllSameSizes {V : Type} [Zero V] (v : Values V) : List (Op V) → Prop
  | [] => True
  | op :: rest => SameSizes v op ∧ ∀ v' x, step v op = some (v', x) → AllSameSizes v' rest

end Verif.Views.Spec
