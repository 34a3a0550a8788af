import Verif.Nestor.Surface
import Verif.Nestor.GreenSpec
import Verif.Fourier.Orth
import Mathlib.Analysis.SpecialFunctions.Trigonometric.Deriv
import Mathlib.Analysis.Calculus.Deriv.Add
import Mathlib.Analysis.Calculus.Deriv.Mul

/-! # Fourier series in two angles and their derivatives -/
namespace Verif.Nestor
open Verif Finset Fourier

/-- coefficients of `cos cos`, `sin sin`, `sin cos`, `cos sin` of `m θ`, `n ζ`, as functions of `n`, `m` -/
@[ext] structure Ser where
  cc : Int → Int → ℝ
  ss : Int → Int → ℝ
  sc : Int → Int → ℝ
  cs : Int → Int → ℝ

namespace Ser
noncomputable def term (S : Ser) (n m : Int) (θ ζ : ℝ) : ℝ :=
  S.cc n m * (Real.cos (m * θ) * Real.cos (n * ζ)) + S.ss n m * (Real.sin (m * θ) * Real.sin (n * ζ))
    + S.sc n m * (Real.sin (m * θ) * Real.cos (n * ζ)) + S.cs n m * (Real.cos (m * θ) * Real.sin (n * ζ))

noncomputable def eval (ntor mpol : Int) (S : Ser) (θ ζ : ℝ) : ℝ := ∑ n ∈ Ico 0 (ntor + 1), ∑ m ∈ Ico 0 mpol, S.term n m θ ζ

def dθ (S : Ser) : Ser := ⟨fun n m => m * S.sc n m, fun n m => -m * S.cs n m, fun n m => -m * S.cc n m, fun n m => m * S.ss n m⟩
def dζ (S : Ser) : Ser := ⟨fun n m => n * S.cs n m, fun n m => -n * S.sc n m, fun n m => n * S.ss n m, fun n m => -n * S.cc n m⟩
def add (S T : Ser) : Ser := ⟨fun n m => S.cc n m + T.cc n m, fun n m => S.ss n m + T.ss n m, fun n m => S.sc n m + T.sc n m, fun n m => S.cs n m + T.cs n m⟩
def smul (a : ℝ) (S : Ser) : Ser := ⟨fun n m => a * S.cc n m, fun n m => a * S.ss n m, fun n m => a * S.sc n m, fun n m => a * S.cs n m⟩

theorem hasDeriv_term_θ (S : Ser) (n m : Int) (θ ζ : ℝ) : HasDerivAt (fun t => S.term n m t ζ) (S.dθ.term n m θ ζ) θ := by
  have h1 : HasDerivAt (fun t : ℝ => (m : ℝ) * t) m θ := by simpa using (hasDerivAt_id θ).const_mul (m : ℝ)
  have hs := h1.sin
  have hc := h1.cos
  have := ((((hc.mul_const (Real.cos (n * ζ))).const_mul (S.cc n m)).add ((hs.mul_const (Real.sin (n * ζ))).const_mul (S.ss n m))).add
    ((hs.mul_const (Real.cos (n * ζ))).const_mul (S.sc n m))).add ((hc.mul_const (Real.sin (n * ζ))).const_mul (S.cs n m))
  refine this.congr_deriv ?_
  unfold term dθ
  simp only []
  ring

theorem hasDeriv_term_ζ (S : Ser) (n m : Int) (θ ζ : ℝ) : HasDerivAt (fun t => S.term n m θ t) (S.dζ.term n m θ ζ) ζ := by
  have h1 : HasDerivAt (fun t : ℝ => (n : ℝ) * t) n ζ := by simpa using (hasDerivAt_id ζ).const_mul (n : ℝ)
  have hs := h1.sin
  have hc := h1.cos
  have := ((((hc.const_mul (Real.cos (m * θ))).const_mul (S.cc n m)).add ((hs.const_mul (Real.sin (m * θ))).const_mul (S.ss n m))).add
    ((hc.const_mul (Real.sin (m * θ))).const_mul (S.sc n m))).add ((hs.const_mul (Real.cos (m * θ))).const_mul (S.cs n m))
  refine this.congr_deriv ?_
  unfold term dζ
  simp only []
  ring

variable (nt mp : Int)

theorem hasDeriv_θ (S : Ser) (θ ζ : ℝ) : HasDerivAt (fun t => S.eval nt mp t ζ) (S.dθ.eval nt mp θ ζ) θ := by
  unfold eval
  exact HasDerivAt.fun_sum fun n _ => HasDerivAt.fun_sum fun m _ => S.hasDeriv_term_θ n m θ ζ

theorem hasDeriv_ζ (S : Ser) (θ ζ : ℝ) : HasDerivAt (fun t => S.eval nt mp θ t) (S.dζ.eval nt mp θ ζ) ζ := by
  unfold eval
  exact HasDerivAt.fun_sum fun n _ => HasDerivAt.fun_sum fun m _ => S.hasDeriv_term_ζ n m θ ζ

theorem eval_add (S T : Ser) (θ ζ : ℝ) : (S.add T).eval nt mp θ ζ = S.eval nt mp θ ζ + T.eval nt mp θ ζ := by
  unfold eval
  rw [← sum_add_distrib]
  refine sum_congr rfl fun n _ => ?_
  rw [← sum_add_distrib]
  refine sum_congr rfl fun m _ => ?_
  unfold term add
  ring

theorem eval_smul (a : ℝ) (S : Ser) (θ ζ : ℝ) : (S.smul a).eval nt mp θ ζ = a * S.eval nt mp θ ζ := by
  unfold eval
  rw [mul_sum]
  refine sum_congr rfl fun n _ => ?_
  rw [mul_sum]
  refine sum_congr rfl fun m _ => ?_
  unfold term smul
  ring

/-- even under the reflection of both angles -/
def Even (S : Ser) : Prop := (∀ n m, S.sc n m = 0) ∧ ∀ n m, S.cs n m = 0
def Odd (S : Ser) : Prop := (∀ n m, S.cc n m = 0) ∧ ∀ n m, S.ss n m = 0

theorem even_dθ {S : Ser} (h : S.Even) : S.dθ.Odd := ⟨fun n m => by simp [dθ, h.1], fun n m => by simp [dθ, h.2]⟩
theorem even_dζ {S : Ser} (h : S.Even) : S.dζ.Odd := ⟨fun n m => by simp [dζ, h.2], fun n m => by simp [dζ, h.1]⟩
theorem odd_dθ {S : Ser} (h : S.Odd) : S.dθ.Even := ⟨fun n m => by simp [dθ, h.1], fun n m => by simp [dθ, h.2]⟩
theorem odd_dζ {S : Ser} (h : S.Odd) : S.dζ.Even := ⟨fun n m => by simp [dζ, h.2], fun n m => by simp [dζ, h.1]⟩

theorem term_reflect (S : Ser) (n m i j : Int) (θ ζ : ℝ) :
    S.term n m (i * (2 * Real.pi) - θ) (j * (2 * Real.pi) - ζ)
      = S.cc n m * (Real.cos (m * θ) * Real.cos (n * ζ)) + S.ss n m * (Real.sin (m * θ) * Real.sin (n * ζ))
    - S.sc n m * (Real.sin (m * θ) * Real.cos (n * ζ)) - S.cs n m * (Real.cos (m * θ) * Real.sin (n * ζ)) := by
  have e1 : (m : ℝ) * (i * (2 * Real.pi) - θ) = (m * i : Int) * (2 * Real.pi) - m * θ := by push_cast; ring
  have e2 : (n : ℝ) * (j * (2 * Real.pi) - ζ) = (n * j : Int) * (2 * Real.pi) - n * ζ := by push_cast; ring
  unfold term
  rw [e1, e2, Real.cos_int_mul_two_pi_sub, Real.cos_int_mul_two_pi_sub, Real.sin_int_mul_two_pi_sub, Real.sin_int_mul_two_pi_sub]
  ring

theorem even_reflect {S : Ser} (h : S.Even) (i j : Int) (θ ζ : ℝ) :
    S.eval nt mp (i * (2 * Real.pi) - θ) (j * (2 * Real.pi) - ζ) = S.eval nt mp θ ζ := by
  unfold eval
  refine sum_congr rfl fun n _ => sum_congr rfl fun m _ => ?_
  rw [term_reflect]
  unfold term
  rw [h.1, h.2]
  ring

theorem odd_reflect {S : Ser} (h : S.Odd) (i j : Int) (θ ζ : ℝ) :
    S.eval nt mp (i * (2 * Real.pi) - θ) (j * (2 * Real.pi) - ζ) = -S.eval nt mp θ ζ := by
  unfold eval
  rw [← sum_neg_distrib]
  refine sum_congr rfl fun n _ => ?_
  rw [← sum_neg_distrib]
  refine sum_congr rfl fun m _ => ?_
  rw [term_reflect]
  unfold term
  rw [h.1, h.2]
  ring

end Ser

namespace SCtx
variable (c : SCtx)

/-- coefficient of the product of unscaled functions -/
noncomputable def coef (q : Coef) (n m : Int) : ℝ := scale m * scale n * c.co q (n * c.s.mpol + m)

noncomputable def base : Base → Ser
  | .r => ⟨c.coef .rCC, c.coef .rSS, fun _ _ => 0, fun _ _ => 0⟩
  | .z => ⟨fun _ _ => 0, fun _ _ => 0, c.coef .zSC, c.coef .zCS⟩
  | .rA => ⟨fun _ _ => 0, fun _ _ => 0, c.coef .rSC, c.coef .rCS⟩
  | .zA => ⟨c.coef .zCC, c.coef .zSS, fun _ _ => 0, fun _ _ => 0⟩

noncomputable def derive (S : Ser) : Der → Ser
  | .b => S
  | .u => S.dθ
  | .v => (S.dζ).smul c.s.nfp
  | .uu => S.dθ.dθ
  | .uv => (S.dθ.dζ).smul c.s.nfp
  | .vv => (S.dζ.dζ).smul (c.s.nfp ^ 2)

/-- what the array holds at a pair of angles -/
noncomputable def value (f : Base × Der) (θ ζ : ℝ) : ℝ := (c.derive (c.base f.1) f.2).eval c.s.ntor c.s.mpol θ ζ

theorem mLoop_eq (n l : Int) (q : Coef) (o : Ord) : c.mLoop n l q o
    = if c.mGate l q o then ∑ m ∈ Ico 0 c.s.mpol, c.co q (n * c.s.mpol + m) * c.mTab l m q o else 0 := by
  unfold mLoop
  rw [forRange_map (fun m acc q o => if c.mGate l q o then acc q o + c.co q (n * c.s.mpol + m) * c.mTab l m q o else acc q o)
    (fun m x => if c.mGate l q o then x + c.co q (n * c.s.mpol + m) * c.mTab l m q o else x) (fun a : Coef → Ord → ℝ => a q o) (fun _ _ => rfl)]
  by_cases h : c.mGate l q o = true
  · simp only [h, if_true]
    rw [forRange_add, zero_add]
  · simp only [h]
    exact forRange_none _ (fun _ _ _ _ => rfl) _

/-- closed form of one pass over `n` for the point `(l, k)` -/
theorem kTab_eq (g : GoodGrid c.s) {n l k : Int} (hn0 : 0 ≤ n) (hn1 : n ≤ c.s.ntor) (hl0 : 0 ≤ l) (hl1 : l < c.s.nThetaReduced)
    (hk0 : 0 ≤ k) (hk1 : k < c.s.nZeta) (f : Base × Der)
    (hg : c.s.lasym = true ∨ f.1.asym = false ∧ (f.2 = .b ∨ c.ztMin.tdiv c.s.nZeta ≤ l ∧ l ≤ c.ztMax.tdiv c.s.nZeta)) :
    c.kTab n k (c.mLoop n l) f = ∑ m ∈ Ico 0 c.s.mpol, (c.derive (c.base f.1) f.2).term n m (thetaGrid c.s l) (zetaGrid c.s k) := by
  have gn := g.n2
  have ht := tor_eq fastToroidal (Or.inr rfl) c.s c.s.nfp n k hn0 (by omega) hk0 hk1
  have hp (m : Int) (hm : m ∈ Ico 0 c.s.mpol) := pol_eq fastToroidal (Or.inr rfl) c.s m l (mem_Ico.1 hm).1
    (by have := g.m2; have := (mem_Ico.1 hm).2; omega) hl0 hl1
  have gate (q : Coef) (o : Ord) (hq : q.asym = true → f.1.asym = true) (ho : o ≠ .none → f.2 ≠ .b) : c.mGate l q o = true := by
    unfold mGate
    rcases hg with h | ⟨h, h'⟩
    · simp [h]
    · have : q.asym = false := by
        cases hq' : q.asym
        · rfl
        · rw [hq hq'] at h; exact absurd h (by decide)
      rw [this]
      rcases h' with h' | h'
      · have : o = .none := by by_contra h2; exact ho h2 h'
        simp [this]
      · simp [h'.1, h'.2]
  obtain ⟨b, d⟩ := f
  cases b <;> cases d <;>
    (unfold kTab
     simp only [mLoop_eq]
     simp (discharger := (first | decide | (simp [Coef.asym, Base.asym]))) only [gate, if_true]
     rw [sum_mul, sum_mul, ← sum_add_distrib]
     refine sum_congr rfl fun m hm => ?_
     unfold mTab fp ft
     simp only [ht, hp m hm]
     unfold derive base Ser.term Ser.dθ Ser.dζ Ser.smul coef thetaGrid zetaGrid
     unfold polEntry torEntry
     simp only [Ser.dθ, Ser.dζ]
     push_cast
     ring)

end SCtx
end Verif.Nestor
