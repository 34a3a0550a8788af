import Verif.Indata.Model

/-!
# Vocabulary for the input properties
-/
namespace Verif.Indata
open Verif

/-- a double that is not below zero, NaN included -/
def NotNeg (x : D) : Prop := x ≠ .ninf ∧ ∀ q : ℚ, x = .fin q → 0 ≤ q

/-- NaN, or in the half-open interval (lo, hi] -/
def NanOrIn (lo hi : ℚ) (x : D) : Prop := x = .nan ∨ ∃ q : ℚ, x = .fin q ∧ lo < q ∧ q ≤ hi

/-- a matrix of the given shape -/
def Shape (r c : Int) (a : Mat D) : Prop := a.rows = r ∧ a.cols = c

/-- what the documentation asks of an input (`vmec_indata.h` and the messages of `IsConsistent`), up to NaN -/
structure Documented (d : Indata) : Prop where
  nfp : 0 < d.nfp
  mpol : 2 ≤ d.mpol
  ntor : 0 ≤ d.ntor
  ntheta : 0 ≤ d.ntheta
  nzeta : 0 ≤ d.nzeta
  grids : d.ns_array ≠ []
  surfaces : ∀ n ∈ d.ns_array, 3 ≤ n
  monotone : d.ns_array.Pairwise (· ≤ ·)
  ftol : ∀ i, i < d.ns_array.length → ∃ x, d.ftol_array[i]? = some x ∧ NotNeg x
  niter : ∀ i, i < d.ns_array.length → ∃ n, d.niter_array[i]? = some n ∧ 0 < n
  phiedge : d.phiedge ≠ .fin 0
  ncurr : d.ncurr = 0 ∨ d.ncurr = 1
  pres_scale : NotNeg d.pres_scale
  gamma : d.gamma ≠ .fin 1
  spres_ped : NanOrIn 0 1 d.spres_ped
  bloat : d.ncurr = 0 → d.bloat = .fin 1
  nvacskip : d.lfreeb = true → 1 ≤ d.nvacskip
  method : d.lfreeb = true → d.free_boundary_method ≠ .BIEST
  nstep : 0 < d.nstep
  delt : NanOrIn 0 10 d.delt
  tcon0 : d.tcon0 = .nan ∨ ∃ q : ℚ, d.tcon0 = .fin q ∧ 0 ≤ q ∧ q ≤ 1
  raxis_c : (d.raxis_c.length : Int) = d.ntor + 1
  zaxis_s : (d.zaxis_s.length : Int) = d.ntor + 1
  rbc : Shape d.mpol (2 * d.ntor + 1) d.rbc
  zbs : Shape d.mpol (2 * d.ntor + 1) d.zbs
  sym : d.lasym = false → d.raxis_s = none ∧ d.zaxis_c = none ∧ d.rbs = none ∧ d.zbc = none
  asym : d.lasym = true →
    (∃ v, d.raxis_s = some v ∧ (v.length : Int) = d.ntor + 1) ∧ (∃ v, d.zaxis_c = some v ∧ (v.length : Int) = d.ntor + 1) ∧
    (∃ a, d.rbs = some a ∧ Shape d.mpol (2 * d.ntor + 1) a) ∧ (∃ a, d.zbc = some a ∧ Shape d.mpol (2 * d.ntor + 1) a)

/-- the call returns a value or an error status: no exception, no abort, no undefined behaviour -/
def Returns {α : Type} (x : Outcome α) : Prop := (∃ a, x = .ok a) ∨ ∃ m, x = .status m

/-- the arrays that the validation reads exist -/
structure Readable (d : Indata) : Prop where
  ftol : d.ns_array.length ≤ d.ftol_array.length
  niter : d.ns_array.length ≤ d.niter_array.length
  asym : d.lasym = true → d.raxis_s.isSome ∧ d.zaxis_c.isSome ∧ d.rbs.isSome ∧ d.zbc.isSome

/-! ## JSON -/

/-- a value of C++ `int` -/
def IsInt (i : Int) : Prop := -2 ^ 31 ≤ i ∧ i < 2 ^ 31

/-- a document that text can express: integers of 64 bits, no NaN and infinities (`nlohmann::json::dump` writes `null` for them, and
    `parse` throws on numbers that overflow), and finitely many members in every object -/
inductive Finite : Json → Prop
  | null : Finite .null
  | bool (b : Bool) : Finite (.bool b)
  | int (i : Int) (h : -2 ^ 63 ≤ i ∧ i < 2 ^ 64) : Finite (.int i)
  | float (x : D) (h : x.isFinite = true) : Finite (.float x)
  | str (s : String) : Finite (.str s)
  | arr (l : List Json) (h : ∀ j ∈ l, Finite j) : Finite (.arr l)
  | obj (f : String → Option Json) (h : ∀ k j, f k = some j → Finite j) (keys : List String) (hk : ∀ k, f k ≠ none → k ∈ keys) : Finite (.obj f)

/-- what is assumed of the JSON library: text that was written is read back unchanged, and text yields finite numbers -/
structure TextLayer (dump : Json → String) (parse : String → Option Json) : Prop where
  roundtrip : ∀ j, Finite j → parse (dump j) = some j
  finite : ∀ t j, parse t = some j → Finite j

/-- all members of the object are values of their C++ types that JSON can express -/
structure Plain (d : Indata) : Prop where
  nfp : IsInt d.nfp
  mpol : IsInt d.mpol
  ntor : IsInt d.ntor
  mpol_geometry : IsInt d.mpol_geometry
  ntor_geometry : IsInt d.ntor_geometry
  ntheta : IsInt d.ntheta
  nzeta : IsInt d.nzeta
  ns_array : ∀ n ∈ d.ns_array, IsInt n
  ftol_array : ∀ x ∈ d.ftol_array, x.isFinite = true
  niter_array : ∀ n ∈ d.niter_array, IsInt n
  phiedge : d.phiedge.isFinite = true
  ncurr : IsInt d.ncurr
  am : ∀ x ∈ d.am, x.isFinite = true
  am_aux_s : ∀ x ∈ d.am_aux_s, x.isFinite = true
  am_aux_f : ∀ x ∈ d.am_aux_f, x.isFinite = true
  pres_scale : d.pres_scale.isFinite = true
  gamma : d.gamma.isFinite = true
  spres_ped : d.spres_ped.isFinite = true
  ai : ∀ x ∈ d.ai, x.isFinite = true
  ai_aux_s : ∀ x ∈ d.ai_aux_s, x.isFinite = true
  ai_aux_f : ∀ x ∈ d.ai_aux_f, x.isFinite = true
  ac : ∀ x ∈ d.ac, x.isFinite = true
  ac_aux_s : ∀ x ∈ d.ac_aux_s, x.isFinite = true
  ac_aux_f : ∀ x ∈ d.ac_aux_f, x.isFinite = true
  curtor : d.curtor.isFinite = true
  bloat : d.bloat.isFinite = true
  extcur : ∀ x ∈ d.extcur, x.isFinite = true
  nvacskip : IsInt d.nvacskip
  nstep : IsInt d.nstep
  aphi : ∀ x ∈ d.aphi, x.isFinite = true
  delt : d.delt.isFinite = true
  tcon0 : d.tcon0.isFinite = true
  raxis_c : ∀ x ∈ d.raxis_c, x.isFinite = true
  zaxis_s : ∀ x ∈ d.zaxis_s, x.isFinite = true
  raxis_s : ∀ v, d.raxis_s = some v → ∀ x ∈ v, x.isFinite = true
  zaxis_c : ∀ v, d.zaxis_c = some v → ∀ x ∈ v, x.isFinite = true
  rbc : ∀ i j, 0 ≤ i → i < d.rbc.rows → 0 ≤ j → j < d.rbc.cols → (d.rbc.val i j).isFinite = true
  zbs : ∀ i j, 0 ≤ i → i < d.zbs.rows → 0 ≤ j → j < d.zbs.cols → (d.zbs.val i j).isFinite = true
  rbs : ∀ a, d.rbs = some a → ∀ i j, 0 ≤ i → i < a.rows → 0 ≤ j → j < a.cols → (a.val i j).isFinite = true
  zbc : ∀ a, d.zbc = some a → ∀ i j, 0 ≤ i → i < a.rows → 0 ≤ j → j < a.cols → (a.val i j).isFinite = true

/-- the lengths that the reader compares and the validation does not -/
structure Matching (d : Indata) : Prop where
  ftol : d.ftol_array.length = d.ns_array.length
  niter : d.niter_array.length = d.ns_array.length
  am : d.am_aux_f.length = d.am_aux_s.length
  ai : d.ai_aux_f.length = d.ai_aux_s.length
  ac : d.ac_aux_f.length = d.ac_aux_s.length

/-- equality of two optional matrices entry by entry -/
def SameOpt (a b : Option (Mat D)) : Prop := (a = none ∧ b = none) ∨ ∃ x y, a = some x ∧ b = some y ∧ x.Same y

/-- `operator==` of the input class for objects without NaN -/
structure Equal (a b : Indata) : Prop where
  plain : { a with rbc := b.rbc, zbs := b.zbs, rbs := b.rbs, zbc := b.zbc } = b
  rbc : a.rbc.Same b.rbc
  zbs : a.zbs.Same b.zbs
  rbs : SameOpt a.rbs b.rbs
  zbc : SameOpt a.zbc b.zbc

end Verif.Indata
