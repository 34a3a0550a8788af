import Verif.Coeffs.Model
import Mathlib.Tactic.LinearCombination
import Mathlib.Tactic.FieldSimp

namespace Verif.Coeffs
open Verif

/-- the arrays that are allocated, `fourier_coefficients.cc:27-58` -/
def Ctx.has (x : Ctx) : F → Bool
  | .rcc | .zsc | .lsc => true
  | .rss | .zcs | .lcs => x.lthreed
  | .rsc | .zcc | .lcc => x.lasym
  | .rcs | .zss | .lss => x.lasym && x.lthreed

def isLambda : F → Bool
  | .lsc | .lcs | .lcc | .lss => true
  | _ => false

theorem forRange_single {S : Type} (f : Int → S → S) (a : Int) (s : S) : forRange a (a + 1) f s = f a s := by
  rw [forRange_cons (by omega), forRange_empty (by omega)]

/-! ## m = 1 -/

noncomputable def mixF (x : Ctx) (f : ℝ) (v : F → ℝ) : F → ℝ := fun c =>
  match c with
  | .rss => if x.lthreed then (v .rss + v .zcs) * f else v .rss
  | .zcs => if x.lthreed then (v .rss - v .zcs) * f else v .zcs
  | .rsc => if x.lasym then (v .rsc + v .zcc) * f else v .rsc
  | .zcc => if x.lasym then (v .rsc - v .zcc) * f else v .zcc
  | c => v c

theorem m1Body_col (x : Ctx) (f : ℝ) (j n : Int) (s : State) (i : Int) :
    (fun c => m1Body x f j n s c i)
      = if i = x.idx j 1 n then mixF x f (fun c => s c i) else fun c => s c i := by
  funext c
  unfold m1Body
  by_cases h3 : x.lthreed <;> by_cases hl : x.lasym <;> cases c <;> by_cases hi : i = x.idx j 1 n <;>
    simp_all [put_apply, mixF]

theorem m1_col (x : Ctx) (hM : 2 ≤ x.mpol) (f : ℝ) (jMax : Option Int) (s : State) (j m n : Int)
    (hm : 0 ≤ m) (hm' : m < x.mpol) (hn : 0 ≤ n) (hn' : n ≤ x.ntor) :
    (fun c => m1Constraint x f jMax s c (x.idx j m n))
      = if (x.nsMin ≤ j ∧ j < x.m1Max jMax) ∧ m = 1 then mixF x f (fun c => s c (x.idx j m n))
        else fun c => s c (x.idx j m n) := by
  have h := grid3 (lo := x.nsMin) (hi := x.m1Max jMax) (j0 := x.nsMin) (mpol := x.mpol) (ntor := x.ntor)
    (mlo := 1) (mhi := 1 + 1) (nlo := 0) (nhi := x.ntor + 1) (by omega) (by omega) (by omega) (by omega)
    (fun j m n s => if m = 1 then m1Body x f j n s else fun c i => if i = fcIdx x.nsMin x.mpol x.ntor j m n
      then mixF x f (fun c => s c i) c else s c i)
    (fun j m n v => mixF x f v)
    (by
      intro j m n s i
      by_cases e : m = 1
      · subst e; simp only [if_true]; exact m1Body_col x f j n s i
      · simp only [e, if_false]; funext c; split <;> rfl)
    s j m n hm hm' hn hn'
  simp only [forRange_single, if_true] at h
  unfold m1Constraint
  rw [Ctx.idx, h]
  have : (1 ≤ m ∧ m < 1 + 1) ↔ m = 1 := by omega
  have h2 : (0 ≤ n ∧ n < x.ntor + 1) ↔ True := by simp; omega
  simp only [this, h2, and_true]

theorem mixF_undo (x : Ctx) (f g : ℝ) (h : 2 * f * g = 1) (v : F → ℝ) : mixF x g (mixF x f v) = v := by
  funext c
  by_cases h3 : x.lthreed <;> by_cases hl : x.lasym <;> cases c <;> simp [mixF, h3, hl] <;>
    first
    | linear_combination v .rss * h
    | linear_combination v .zcs * h
    | linear_combination v .rsc * h
    | linear_combination v .zcc * h

/-! ## mask -/

theorem maskBody_col (x : Ctx) (mg ng j m n : Int) (s : State) (i : Int) :
    (fun c => maskBody x mg ng j m n s c i)
      = if i = x.idx j m n then (fun c => if (mg ≤ m ∨ ng < n) ∧ x.has c ∧ isLambda c = false then 0 else s c i)
        else fun c => s c i := by
  funext c
  unfold maskBody
  by_cases hk : m < mg ∧ n ≤ ng
  · have : ¬ (mg ≤ m ∨ ng < n) := by omega
    simp [hk, this]
  · have : mg ≤ m ∨ ng < n := by omega
    rw [if_neg hk]
    by_cases h3 : x.lthreed <;> by_cases hl : x.lasym <;> cases c <;> by_cases hi : i = x.idx j m n <;>
      simp [put_apply, h3, hl, hi, this, Ctx.has, isLambda]

theorem mask_col (x : Ctx) (mg ng : Int) (s : State) (j m n : Int)
    (hm : 0 ≤ m) (hm' : m < x.mpol) (hn : 0 ≤ n) (hn' : n ≤ x.ntor) (c : F) :
    maskGeometryAbove x mg ng s c (x.idx j m n)
      = if (x.nsMin ≤ j ∧ j < x.jMaxIncludingBoundary) ∧ (mg ≤ m ∨ ng < n) ∧ x.has c ∧ isLambda c = false
        then 0 else s c (x.idx j m n) := by
  have h := grid3 (lo := x.nsMin) (hi := x.jMaxIncludingBoundary) (j0 := x.nsMin) (mpol := x.mpol) (ntor := x.ntor)
    (mlo := 0) (mhi := x.mpol) (nlo := 0) (nhi := x.ntor + 1) (by omega) (by omega) (by omega) (by omega)
    (fun j m n s => maskBody x mg ng j m n s)
    (fun j m n v c => if (mg ≤ m ∨ ng < n) ∧ x.has c ∧ isLambda c = false then 0 else v c)
    (fun j m n s i => maskBody_col x mg ng j m n s i) s j m n hm hm' hn hn'
  have := congrFun h c
  beta_reduce at this
  unfold maskGeometryAbove
  rw [Ctx.idx, this]
  by_cases hj : x.nsMin ≤ j ∧ j < x.jMaxIncludingBoundary
  · rw [if_pos ⟨hj, ⟨hm, hm'⟩, hn, by omega⟩]
    simp only [hj, and_self, true_and]
  · rw [if_neg (fun h => hj h.1), if_neg (fun h => hj h.1)]

/-! ## decomposeInto -/

theorem decomposeBody_col (x : Ctx) (sc : Int → ℝ) (src : State) (j m n : Int)
    (d : State) (i : Int) (hj : j < x.jMaxIncludingBoundary) :
    (fun c => decomposeBody x sc src j m n d c i)
      = if i = x.idx j m n then
          (fun c => if x.has c then src c i * sc ((j - x.nsMinF1) * 2 + m.tmod 2) else d c i)
        else fun c => d c i := by
  funext c
  unfold decomposeBody
  by_cases h3 : x.lthreed <;> by_cases hl : x.lasym <;> cases c <;> by_cases hi : i = x.idx j m n <;>
    simp [put_apply, h3, hl, hi, hj, Ctx.has]

/-! ## initial geometry -/

/-- the boundary array that belongs to a state array -/
def bdy : F → Option Boundary.B
  | .rcc => some .rbcc | .rss => some .rbss | .rsc => some .rbsc | .rcs => some .rbcs
  | .zsc => some .zbsc | .zcs => some .zbcs | .zcc => some .zbcc | .zss => some .zbss
  | _ => none

/-- what the magnetic axis prescribes for the `m = 0` coefficients: the axis is the curve
    `R = Σ raxis_c cos(nζ) - raxis_s sin(nζ)`, `Z = Σ zaxis_c cos(nζ) - zaxis_s sin(nζ)` -/
def axisPart (ax : Axis) : F → Int → ℝ
  | .rcc, n => ax.raxis_c n
  | .rcs, n => -ax.raxis_s n
  | .zcc, n => ax.zaxis_c n
  | .zcs, n => -ax.zaxis_s n
  | _, _ => 0

/-- value written by the interpolation -/
noncomputable def interpVal (x : Ctx) (ms ns : Int → ℝ) (b : Boundary.Arrays) (ax : Axis) (q : ℝ)
    (m n : Int) (c : F) (old : ℝ) : ℝ :=
  match bdy c with
  | none => old
  | some bc =>
    if x.has c then
      (if m = 0 then (q * q) * b bc (m * (x.ntor + 1) + n) + (1 - q * q) * axisPart ax c n
       else q ^ m.toNat * b bc (m * (x.ntor + 1) + n)) / (ms m * ns n)
    else old

theorem interpBody_col (x : Ctx) (ms ns : Int → ℝ) (b : Boundary.Arrays) (ax : Axis) (sq : Int → ℝ)
    (j m n : Int) (s : State) (i : Int) :
    (fun c => interpBody x ms ns b ax sq j m n s c i)
      = if i = x.idx j m n then (fun c => interpVal x ms ns b ax (sq (j - x.nsMinF1)) m n c (s c i))
        else fun c => s c i := by
  funext c
  unfold interpBody
  by_cases hm : m = 0
  · subst hm
    by_cases h3 : x.lthreed <;> by_cases hl : x.lasym <;> cases c <;>
      by_cases hi : i = x.idx j 0 n <;>
      simp [put_apply, h3, hl, hi, Ctx.has, interpVal, bdy, axisPart] <;> ring
  · by_cases h3 : x.lthreed <;> by_cases hl : x.lasym <;> cases c <;>
      by_cases hi : i = x.idx j m n <;>
      simp [put_apply, h3, hl, hi, hm, Ctx.has, interpVal, bdy] <;> ring

theorem interp_col (x : Ctx) (ms ns : Int → ℝ) (b : Boundary.Arrays) (ax : Axis) (sq : Int → ℝ)
    (s : State) (j m n : Int) (hj : x.nsMin ≤ j) (hj' : j < x.nsMax)
    (hm : 0 ≤ m) (hm' : m < x.mpol) (hn : 0 ≤ n) (hn' : n ≤ x.ntor) (c : F) :
    interpFromBoundaryAndAxis x ms ns b ax sq s c (x.idx j m n)
      = interpVal x ms ns b ax (sq (j - x.nsMinF1)) m n c (s c (x.idx j m n)) := by
  have h := grid3 (lo := x.nsMin) (hi := x.nsMax) (j0 := x.nsMin) (mpol := x.mpol) (ntor := x.ntor)
    (mlo := 0) (mhi := x.mpol) (nlo := 0) (nhi := x.ntor + 1) (by omega) (by omega) (by omega) (by omega)
    (fun j m n s => interpBody x ms ns b ax sq j m n s)
    (fun j m n v c => interpVal x ms ns b ax (sq (j - x.nsMinF1)) m n c (v c))
    (fun j m n s i => interpBody_col x ms ns b ax sq j m n s i) s j m n hm hm' hn hn'
  have := congrFun h c
  beta_reduce at this
  unfold interpFromBoundaryAndAxis
  rw [Ctx.idx, this, if_pos ⟨⟨hj, hj'⟩, ⟨hm, hm'⟩, hn, by omega⟩]

theorem sqrtSF_sq (x : Ctx) (hns : 2 ≤ x.ns) (j : Int) (hj : 0 ≤ j) :
    sqrtSF x (j - x.nsMinF1) = Real.sqrt ((j : ℝ) / (x.ns - 1)) := by
  unfold sqrtSF
  split
  · rename_i h
    have : j = x.ns - 1 := by omega
    have hne : (x.ns : ℝ) - 1 ≠ 0 := by
      have : (2 : ℝ) ≤ x.ns := by exact_mod_cast hns
      linarith
    rw [this]; push_cast; rw [div_self hne, Real.sqrt_one]
  · simp

end Verif.Coeffs
