import Verif.Fourier.Model
import Verif.Fourier.Spec
import Verif.Sizes.Model

/-!
# Model of the basis tables, `common/fourier_basis/fourier_basis.cc:55-138`

Over `ℝ`. The parallel arrays `cosmu, sinmu, ...` (same index everywhere) are grouped into one array
of records.
-/
namespace Verif.Fourier
open Verif

/-- one poloidal table entry -/
structure PolEntry where
  cosmu : ℝ
  sinmu : ℝ
  cosmui : ℝ
  sinmui : ℝ
  cosmum : ℝ
  sinmum : ℝ
  cosmumi : ℝ
  sinmumi : ℝ

/-- one toroidal table entry -/
structure TorEntry where
  cosnv : ℝ
  sinnv : ℝ
  cosnvn : ℝ
  sinnvn : ℝ

instance : Zero PolEntry := ⟨⟨0, 0, 0, 0, 0, 0, 0, 0⟩⟩
instance : Zero TorEntry := ⟨⟨0, 0, 0, 0⟩⟩

/-- `mscale[m]` as filled at `fourier_basis.cc:66-76` (and `nscale[n]` at 109-119) -/
noncomputable def fillScale (count : Int) : Int → ℝ :=
  forRange 0 count (fun m a => upd a m (if m = 0 then 1 else Real.sqrt 2)) (fun _ => 0)

/-- loop body at `fourier_basis.cc:79-104` -/
noncomputable def polEntry (s : Sizes.Sizes) (mscale : Int → ℝ) (m l : Int) : PolEntry :=
  let intNorm : ℝ := 1 / (s.nZeta * (s.nThetaReduced - 1) : Int)
  let theta : ℝ := 2 * Real.pi * l / s.nThetaEven
  let arg : ℝ := m * theta
  let cosmu := Real.cos arg * mscale m
  let sinmu := Real.sin arg * mscale m
  let cosmui0 := cosmu * intNorm
  let sinmui := sinmu * intNorm
  let cosmui := if l = 0 ∨ l = s.nThetaReduced - 1 then cosmui0 / 2 else cosmui0
  { cosmu := cosmu, sinmu := sinmu, cosmui := cosmui, sinmui := sinmui
    cosmum := m * cosmu, sinmum := -m * sinmu, cosmumi := m * cosmui, sinmumi := -m * sinmui }

/-- poloidal tables, `fourier_basis.cc:66-106` -/
noncomputable def polTables (L : Layout) (s : Sizes.Sizes) : Int → PolEntry :=
  let mscale := fillScale (s.mnyq2 + 1)
  forRange 0 (s.mnyq2 + 1) (fun m t =>
    forRange 0 s.nThetaReduced (fun l t =>
      upd t (L.poloidal m l (s.mnyq2 + 1) s.nThetaReduced) (polEntry s mscale m l)) t) (fun _ => 0)

/-- loop body at `fourier_basis.cc:122-136` -/
noncomputable def torEntry (s : Sizes.Sizes) (nscale : Int → ℝ) (nfp n k : Int) : TorEntry :=
  let zeta : ℝ := 2 * Real.pi * k / s.nZeta
  let arg : ℝ := n * zeta
  let cosnv := Real.cos arg * nscale n
  let sinnv := Real.sin arg * nscale n
  { cosnv := cosnv, sinnv := sinnv, cosnvn := n * nfp * cosnv, sinnvn := -n * nfp * sinnv }

/-- toroidal tables, `fourier_basis.cc:109-137` -/
noncomputable def torTables (L : Layout) (s : Sizes.Sizes) (nfp : Int) : Int → TorEntry :=
  let nscale := fillScale (s.nnyq2 + 1)
  forRange 0 s.nZeta (fun k t =>
    forRange 0 (s.nnyq2 + 1) (fun n t =>
      upd t (L.toroidal n k (s.nnyq2 + 1) s.nZeta) (torEntry s nscale nfp n k)) t) (fun _ => 0)

/-- table lookups at a mode number and a grid point -/
noncomputable def pol (L : Layout) (s : Sizes.Sizes) (m l : Int) : PolEntry :=
  polTables L s (L.poloidal m l (s.mnyq2 + 1) s.nThetaReduced)
noncomputable def tor (L : Layout) (s : Sizes.Sizes) (nfp n k : Int) : TorEntry :=
  torTables L s nfp (L.toroidal n k (s.nnyq2 + 1) s.nZeta)

end Verif.Fourier
