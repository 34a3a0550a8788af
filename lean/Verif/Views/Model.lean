/-!
# The Fourier containers: arrays they own and spans that refer to them (C120)

`FourierGeometry`, `FourierForces` and `FourierVelocity` derive from `FourierCoeffs`, which owns twelve
`Eigen::VectorXd`.  Each derived class adds twelve `std::span<double>` under other names, which refer to the
storage of the twelve vectors.  All loops of the force model go through the spans.

The model has a heap with explicit addresses, an arbitrary allocator that may hand out freed addresses again,
and objects with vectors and spans.  `none` is undefined behaviour: access through a dangling or too short span,
copy from or free of storage that is not allocated.

Names of spans: `Sp.Rcc` stands for `rmncc`, `frcc` and `vrcc`, `Sp.Zsc` for `zmnsc`, `fzsc` and `vzsc`, and so on.
-/

namespace Verif.Views

/-- The vectors of `FourierCoeffs`, `fourier_coefficients.h:62-101`, in the order of their declaration. -/
inductive Arr
  | rcc | rss | rsc | rcs | zsc | zcs | zcc | zss | lsc | lcs | lcc | lss
  deriving DecidableEq, Repr

/-- The spans of the derived classes: `fourier_geometry.h:56-95`, `fourier_forces.h:27-40`,
`fourier_velocity.h:23-36`. -/
inductive Sp
  | Rcc | Rss | Rsc | Rcs | Zsc | Zcs | Zcc | Zss | Lsc | Lcs | Lcc | Lss
  deriving DecidableEq, Repr

/-- What the four places that set spans assign: which span gets which vector. -/
structure Cls where
  ctor : List (Sp × Arr)
  copy : List (Sp × Arr)
  bind : List (Sp × Arr)
  move : List (Sp × Arr)

/-- `fourier_geometry.cc:15-31`, `:33-48`, `:50-63`, `:73-88`. -/
def geometry : Cls where
  ctor := [(.Rcc, .rcc), (.Rss, .rss), (.Rsc, .rsc), (.Rcs, .rcs), (.Zsc, .zsc), (.Zcs, .zcs), (.Zcc, .zcc),
    (.Zss, .zss), (.Lsc, .lsc), (.Lcs, .lcs), (.Lcc, .lcc), (.Lss, .lss)]
  copy := [(.Rcc, .rcc), (.Rss, .rss), (.Rsc, .rsc), (.Rcs, .rcs), (.Zsc, .zsc), (.Zcs, .zcs), (.Zcc, .zcc),
    (.Zss, .zss), (.Lsc, .lsc), (.Lcs, .lcs), (.Lcc, .lcc), (.Lss, .lss)]
  bind := [(.Rcc, .rcc), (.Rss, .rss), (.Rsc, .rsc), (.Rcs, .rcs), (.Zsc, .zsc), (.Zcs, .zcs), (.Zcc, .zcc),
    (.Zss, .zss), (.Lsc, .lsc), (.Lcs, .lcs), (.Lcc, .lcc), (.Lss, .lss)]
  move := [(.Rcc, .rcc), (.Rss, .rss), (.Rsc, .rsc), (.Rcs, .rcs), (.Zsc, .zsc), (.Zcs, .zcs), (.Zcc, .zcc),
    (.Zss, .zss), (.Lsc, .lsc), (.Lcs, .lcs), (.Lcc, .lcc), (.Lss, .lss)]

/-- `fourier_forces.cc:13-27`, `:29-42`, `:44-57`, `:67-80`. -/
def forces : Cls where
  ctor := [(.Rcc, .rcc), (.Rss, .rss), (.Rsc, .rsc), (.Rcs, .rcs), (.Zsc, .zsc), (.Zcs, .zcs), (.Zcc, .zcc),
    (.Zss, .zss), (.Lsc, .lsc), (.Lcs, .lcs), (.Lcc, .lcc), (.Lss, .lss)]
  copy := [(.Rcc, .rcc), (.Rss, .rss), (.Rsc, .rsc), (.Rcs, .rcs), (.Zsc, .zsc), (.Zcs, .zcs), (.Zcc, .zcc),
    (.Zss, .zss), (.Lsc, .lsc), (.Lcs, .lcs), (.Lcc, .lcc), (.Lss, .lss)]
  bind := [(.Rcc, .rcc), (.Rss, .rss), (.Rsc, .rsc), (.Rcs, .rcs), (.Zsc, .zsc), (.Zcs, .zcs), (.Zcc, .zcc),
    (.Zss, .zss), (.Lsc, .lsc), (.Lcs, .lcs), (.Lcc, .lcc), (.Lss, .lss)]
  move := [(.Rcc, .rcc), (.Rss, .rss), (.Rsc, .rsc), (.Rcs, .rcs), (.Zsc, .zsc), (.Zcs, .zcs), (.Zcc, .zcc),
    (.Zss, .zss), (.Lsc, .lsc), (.Lcs, .lcs), (.Lcc, .lcc), (.Lss, .lss)]

/-- `fourier_velocity.cc:11-25`, `:27-40`, `:42-55`, `:65-78`. -/
def velocity : Cls where
  ctor := [(.Rcc, .rcc), (.Rss, .rss), (.Rsc, .rsc), (.Rcs, .rcs), (.Zsc, .zsc), (.Zcs, .zcs), (.Zcc, .zcc),
    (.Zss, .zss), (.Lsc, .lsc), (.Lcs, .lcs), (.Lcc, .lcc), (.Lss, .lss)]
  copy := [(.Rcc, .rcc), (.Rss, .rss), (.Rsc, .rsc), (.Rcs, .rcs), (.Zsc, .zsc), (.Zcs, .zcs), (.Zcc, .zcc),
    (.Zss, .zss), (.Lsc, .lsc), (.Lcs, .lcs), (.Lcc, .lcc), (.Lss, .lss)]
  bind := [(.Rcc, .rcc), (.Rss, .rss), (.Rsc, .rsc), (.Rcs, .rcs), (.Zsc, .zsc), (.Zcs, .zcs), (.Zcc, .zcc),
    (.Zss, .zss), (.Lsc, .lsc), (.Lcs, .lcs), (.Lcc, .lcc), (.Lss, .lss)]
  move := [(.Rcc, .rcc), (.Rss, .rss), (.Rsc, .rsc), (.Rcs, .rcs), (.Zsc, .zsc), (.Zcs, .zcs), (.Zcc, .zcc),
    (.Zss, .zss), (.Lsc, .lsc), (.Lcs, .lcs), (.Lcc, .lcc), (.Lss, .lss)]

/-- The members of `FourierCoeffs` in the order of declaration, `fourier_coefficients.h:62-101`: what the defaulted
copy and move constructors (`:24-25`) and the destructor go through. -/
def members : List Arr := [.rcc, .rss, .rsc, .rcs, .zsc, .zcs, .zcc, .zss, .lsc, .lcs, .lcc, .lss]

/-- The statements of the copy assignment, `fourier_coefficients.cc:63-74`. -/
def assigned : List Arr := [.rcc, .rss, .rsc, .rcs, .zsc, .zcs, .zcc, .zss, .lsc, .lcs, .lcc, .lss]

/-- The statements of the move assignment, `fourier_coefficients.cc:81-92`. -/
def moved : List Arr := [.rcc, .rss, .rsc, .rcs, .zsc, .zcs, .zcc, .zss, .lsc, .lcs, .lcc, .lss]

/-- The constant members `nsMin_`, `nsMax_`, `ns` and the references `s_`, `r_` (`fourier_coefficients.h:55-60`) as far
as the loops use them: the number of coefficients per array and the two flags.  Simplified: the product
`(jMaxIncludingBoundary - nsMin) * mpol * (ntor + 1)` (`fourier_coefficients.cc:21-27`) is one number. -/
structure Dim where
  num : Nat
  lthreed : Bool
  lasym : Bool
  deriving DecidableEq, Repr

/-- Which vectors the constructor resizes, `fourier_coefficients.cc:29-58`. -/
def resized (d : Dim) : List Arr :=
  [.rcc, .zsc, .lsc] ++ (if d.lthreed then [.rss, .zcs, .lcs] else []) ++
    (if d.lasym then [.rsc, .zcc, .lcc] ++ (if d.lthreed then [.rcs, .zss, .lss] else []) else [])

/-- Pointer and length: the storage of an `Eigen::VectorXd` (`m_data`, `m_rows`) as well as a `std::span`. -/
structure View where
  data : Option Nat
  size : Nat
  deriving DecidableEq, Repr

def View.null : View := ⟨none, 0⟩

/-- Allocated blocks with their contents. -/
abbrev Heap (V : Type) := List (Nat × List V)

def Heap.get {V : Type} (h : Heap V) (a : Nat) : Option (List V) := List.lookup a h

def Heap.free {V : Type} (h : Heap V) (a : Nat) : Heap V := h.filter (fun x => x.1 != a)

def Heap.set {V : Type} (h : Heap V) (a : Nat) (l : List V) : Heap V := (a, l) :: h.free a

/-- All objects of one class.  `vec` of an object that does not exist is `null`. -/
structure State (V : Type) where
  heap : Heap V
  live : Nat → Bool
  dim : Nat → Dim
  vec : Nat → Arr → View
  span : Nat → Sp → View

def init {V : Type} : State V := ⟨[], fun _ => false, fun _ => ⟨0, false, false⟩, fun _ _ => .null, fun _ _ => .null⟩

def upd2 {α β γ : Type} [DecidableEq α] [DecidableEq β] (f : α → β → γ) (a : α) (b : β) (c : γ) : α → β → γ :=
  fun x y => if x = a ∧ y = b then c else f x y

def upd1 {α γ : Type} [DecidableEq α] (f : α → γ) (a : α) (c : γ) : α → γ := fun x => if x = a then c else f x

section
variable {V : Type} (pick : Heap V → Nat)

/-- `PlainObjectBase::resize` and filling with `l`: storage is kept if the number of elements is the same, else freed
and allocated anew (nothing is allocated for zero elements).  Covers `resize` with `setZero`, `operator=` from another
vector, the copy constructor (member still empty) and the destructor (`l = []`).  Library code, modelled from its
documented behaviour (Eigen 3.4 `DenseStorage`). -/
def put (s : State V) (o : Nat) (a : Arr) (l : List V) : Option (State V) :=
  if (s.vec o a).size = l.length then
    match (s.vec o a).data with
    | none => some s
    | some p => match s.heap.get p with
      | none => none
      | some _ => some { s with heap := s.heap.set p l }
  else
    let freed : Option (Heap V) := match (s.vec o a).data with
      | none => some s.heap
      | some p => match s.heap.get p with
        | none => none
        | some _ => some (s.heap.free p)
    match freed with
    | none => none
    | some h =>
      if l = [] then some { s with heap := h, vec := upd2 s.vec o a .null }
      else some { s with heap := h.set (pick h) l, vec := upd2 s.vec o a ⟨some (pick h), l.length⟩ }

/-- The elements of a vector. -/
def elems (s : State V) (o : Nat) (a : Arr) : Option (List V) :=
  match (s.vec o a).data with
  | none => some []
  | some p => s.heap.get p

/-- `x = y` for two vectors. -/
def copyVec (o p : Nat) (s : State V) (a : Arr) : Option (State V) :=
  match elems s p a with
  | none => none
  | some l => put pick s o a l

/-- `x = std::move(y)` for two vectors: `DenseStorage::operator=(DenseStorage&&)` of Eigen exchanges pointers and
lengths.  The move constructor takes both and leaves `nullptr` and zero, which is the same exchange with a member that
is still empty. -/
def swapVec (o p : Nat) (s : State V) (a : Arr) : Option (State V) :=
  some { s with vec := upd2 (upd2 s.vec o a (s.vec p a)) p a (s.vec o a) }

/-- Initializers or assignments of spans from vectors (`data()` and `size()`). -/
def bindSpans (t : List (Sp × Arr)) (o : Nat) (s : State V) : State V :=
  { s with span := t.foldl (fun f x => upd2 f o x.1 (s.vec o x.2)) s.span }

/-- Spans before their initializer: of an object under construction. -/
def fresh (o : Nat) (d : Dim) (s : State V) : State V :=
  { s with live := upd1 s.live o true, dim := upd1 s.dim o d,
           span := fun x y => if x = o then .null else s.span x y }

variable [Zero V] (C : Cls)

/-- Constructor, `fourier_coefficients.cc:17-59` and the one of the class. -/
def construct (o : Nat) (d : Dim) (s : State V) : Option (State V) :=
  match (resized d).foldlM (fun s a => put pick s o a (List.replicate d.num 0)) (fresh o d s) with
  | none => none
  | some s => some (bindSpans C.ctor o s)

omit [Zero V] in
/-- Copy constructor: `fourier_coefficients.h:24` (defaulted) and the one of the class. -/
def copyConstruct (o p : Nat) (s : State V) : Option (State V) :=
  match members.foldlM (copyVec pick o p) (fresh o (s.dim p) s) with
  | none => none
  | some s => some (bindSpans C.copy o s)

omit [Zero V] in
/-- Copy assignment, `fourier_coefficients.cc:61-77` inside `fourier_geometry.cc:65-71` (the same in
`fourier_forces.cc:59-65`, `fourier_velocity.cc:57-63`).  The constant members stay. -/
def copyAssign (o p : Nat) (s : State V) : Option (State V) :=
  if o ≠ p then
    match assigned.foldlM (copyVec pick o p) s with
    | none => none
    | some s => some (bindSpans C.bind o s)
  else some s

omit [Zero V] in
/-- Move constructor: `fourier_coefficients.h:25` (defaulted) and the one of the class. -/
def moveConstruct (o p : Nat) (s : State V) : Option (State V) :=
  match members.foldlM (swapVec o p) (fresh o (s.dim p) s) with
  | none => none
  | some s => some (bindSpans C.move o s)

omit [Zero V] in
/-- Move assignment, `fourier_coefficients.cc:79-95` inside `fourier_geometry.cc:90-96` (the same in
`fourier_forces.cc:82-88`, `fourier_velocity.cc:80-86`). -/
def moveAssign (o p : Nat) (s : State V) : Option (State V) :=
  if o ≠ p then
    match moved.foldlM (swapVec o p) s with
    | none => none
    | some s => some (bindSpans C.bind o s)
  else some s

omit [Zero V] in
/-- Implicit destructor. -/
def destroy (o : Nat) (s : State V) : Option (State V) :=
  match members.reverse.foldlM (fun s a => put pick s o a []) s with
  | none => none
  | some s => some { s with live := upd1 s.live o false }

omit [Zero V] in
/-- `x.rmncc[i]`: through the span. -/
def load (o : Nat) (f : Sp) (i : Nat) (s : State V) : Option V :=
  if i < (s.span o f).size then
    match (s.span o f).data with
    | none => none
    | some p => match s.heap.get p with
      | none => none
      | some l => l[i]?
  else none

omit [Zero V] in
/-- `x.rmncc[i] = v`. -/
def store (o : Nat) (f : Sp) (i : Nat) (v : V) (s : State V) : Option (State V) :=
  if i < (s.span o f).size then
    match (s.span o f).data with
    | none => none
    | some p => match s.heap.get p with
      | none => none
      | some l => if i < l.length then some { s with heap := s.heap.set p (l.set i v) } else none
  else none

/-- What a program can do with objects of one class. -/
inductive Op (V : Type)
  | construct (o : Nat) (d : Dim)
  | copyConstruct (o p : Nat)
  | copyAssign (o p : Nat)
  | moveConstruct (o p : Nat)
  | moveAssign (o p : Nat)
  | destroy (o : Nat)
  | store (o : Nat) (f : Sp) (i : Nat) (v : V)
  | load (o : Nat) (f : Sp) (i : Nat)

/-- One operation; the second component is what a read returns. -/
def step (s : State V) : Op V → Option (State V × Option V)
  | .construct o d => (construct pick C o d s).map (·, none)
  | .copyConstruct o p => (copyConstruct pick C o p s).map (·, none)
  | .copyAssign o p => (copyAssign pick C o p s).map (·, none)
  | .moveConstruct o p => (moveConstruct C o p s).map (·, none)
  | .moveAssign o p => (moveAssign C o p s).map (·, none)
  | .destroy o => (destroy pick o s).map (·, none)
  | .store o f i v => (store o f i v s).map (·, none)
  | .load o f i => (load o f i s).map (fun v => (s, some v))

/-- A program: the values read, in order. -/
def run (s : State V) : List (Op V) → Option (State V × List V)
  | [] => some (s, [])
  | op :: rest =>
    match step pick C s op with
    | none => none
    | some (s', v) => match run s' rest with
      | none => none
      | some (s'', vs) => some (s'', v.toList ++ vs)

end

end Verif.Views
