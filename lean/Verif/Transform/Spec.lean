import Verif.Transform.Model

/-!
# What the FFT library documents

`fft_toroidal.cc:59-62` for the complex-to-real transform and `568-570` for the real-to-complex one. The formula in the
comment is the one for an even number of points; for an odd number there is no Nyquist term.
-/
namespace Verif.Transform.Spec
open Finset

/-- real signal of `N` points from its half spectrum -/
noncomputable def synthesis (N : Int) (X : Int → Cpx) (k : Int) : ℝ :=
  (X 0).re + 2 * (∑ n ∈ (Ico 1 N).filter fun n => 2 * n < N,
      ((X n).re * Real.cos (2 * Real.pi * n * k / N) - (X n).im * Real.sin (2 * Real.pi * n * k / N))) +
    if 2 ∣ N then (X (N / 2)).re * Real.cos (Real.pi * k) else 0

/-- half spectrum of a real signal of `N` points -/
noncomputable def analysis (N : Int) (f : Int → ℝ) (n : Int) : Cpx :=
  ⟨∑ k ∈ Ico 0 N, f k * Real.cos (2 * Real.pi * n * k / N), -∑ k ∈ Ico 0 N, f k * Real.sin (2 * Real.pi * n * k / N)⟩

/-- the library does what it documents: a batch of `B` transforms of `N` points, half spectra of `N / 2 + 1` entries; the
    analysis carries the normalisation of the toroidal basis -/
structure Documented (lib : Lib) (N B : Int) : Prop where
  c2r : ∀ X Y b k, 0 ≤ b → b < B → 0 ≤ k → k < N →
    lib.c2r X Y (b * N + k) = synthesis N (fun n => X (b * (N / 2 + 1) + n)) k
  r2c : ∀ f o b n, 0 ≤ b → b < B → 0 ≤ n → n < N / 2 + 1 →
    lib.r2c f o (b * (N / 2 + 1) + n) =
      ⟨(if n = 0 then 1 else Real.sqrt 2) * (analysis N (fun k => f (b * N + k)) n).re,
        (if n = 0 then 1 else Real.sqrt 2) * (analysis N (fun k => f (b * N + k)) n).im⟩

end Verif.Transform.Spec
