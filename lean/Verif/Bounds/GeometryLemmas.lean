import Verif.Bounds.Dims

/-!
# The accesses of the geometry part are in range
-/
namespace Verif.Bounds
open Verif Arr

variable {E : Env}

theorem In.of (i d : Int) (h : 0 ≤ i ∧ i < d) : In i d := ⟨h.1, h.2⟩

theorem In.mono {i d d' : Int} (h : In i d) (h1 : d ≤ d') : In i d' := ⟨h.lo, by have := h.hi; omega⟩

/-- `(j * nZeta + k) * nThetaEff + l` in an array of `n` surfaces -/
theorem row3 (F : Facts E) {j n k l : Int} (h1 : 0 ≤ j) (h2 : j < n) (h3 : 0 ≤ k)
    (h4 : k < E.s.nZeta) (h5 : 0 ≤ l) (h6 : l < E.s.nThetaEff) :
    In ((j * E.s.nZeta + k) * E.s.nThetaEff + l) (E.s.nZnT * n) := by
  have a := row h1 h2 h3 h4
  have b := row a.lo a.hi h5 h6
  rw [F.nznt]
  have e : n * E.s.nZeta * E.s.nThetaEff = E.s.nZeta * E.s.nThetaEff * n := by ring
  rwa [e] at b

/-- `j * nZnT + k * nThetaEff + l` -/
theorem row3b (F : Facts E) {j n k l : Int} (h1 : 0 ≤ j) (h2 : j < n) (h3 : 0 ≤ k)
    (h4 : k < E.s.nZeta) (h5 : 0 ≤ l) (h6 : l < E.s.nThetaEff) :
    In (j * E.s.nZnT + k * E.s.nThetaEff + l) (E.s.nZnT * n) := by
  have b := row3 F h1 h2 h3 h4 h5 h6
  have e : (j * E.s.nZeta + k) * E.s.nThetaEff + l =
      j * E.s.nZnT + k * E.s.nThetaEff + l := by rw [F.nznt]; ring
  rwa [e] at b

/-- `j * nZnT + (k * nThetaEff + l)` -/
theorem row3c (F : Facts E) {j n k l : Int} (h1 : 0 ≤ j) (h2 : j < n) (h3 : 0 ≤ k)
    (h4 : k < E.s.nZeta) (h5 : 0 ≤ l) (h6 : l < E.s.nThetaEff) :
    In (j * E.s.nZnT + (k * E.s.nThetaEff + l)) (E.s.nZnT * n) := by
  rw [← Int.add_assoc]; exact row3b F h1 h2 h3 h4 h5 h6

/-- `k * nThetaEff + l` in one surface -/
theorem row2 (F : Facts E) {k l : Int} (h3 : 0 ≤ k)
    (h4 : k < E.s.nZeta) (h5 : 0 ≤ l) (h6 : l < E.s.nThetaEff) :
    In (k * E.s.nThetaEff + l) E.s.nZnT := by
  rw [F.nznt]; exact row h3 h4 h5 h6

/-- `j * nThetaEff + l` (axisymmetric transforms) -/
theorem rowTheta (F : Facts E) {j n l : Int} (h1 : 0 ≤ j) (h2 : j < n) (h5 : 0 ≤ l)
    (h6 : l < E.s.nThetaEff) : In (j * E.s.nThetaEff + l) (E.s.nZnT * n) := by
  refine (row h1 h2 h5 h6).mono ?_
  rw [Int.mul_comm]
  exact Int.mul_le_mul_of_nonneg_right F.nzntEff (by omega)

theorem fillTheta (F : Facts E) {i n : Int} (h0 : 0 ≤ n) (h1 : 0 ≤ i) (h2 : i < n * E.s.nThetaEff) :
    In i (E.s.nZnT * n) := by
  refine In.mono ⟨h1, h2⟩ ?_
  rw [Int.mul_comm]
  exact Int.mul_le_mul_of_nonneg_right F.nzntEff h0

/-- poloidal basis functions -/
theorem rowMl (F : Facts E) {m l : Int} (h1 : 0 ≤ m) (h2 : m < E.s.mpol) (h5 : 0 ≤ l)
    (h6 : l < E.s.nThetaReduced) :
    In (m * E.s.nThetaReduced + l) (E.s.nThetaReduced * (E.s.mnyq2 + 1)) :=
  row' h1 (by have := F.mnyq2; omega) h5 h6

/-- toroidal basis functions -/
theorem rowKn (F : Facts E) {k n : Int} (h1 : 0 ≤ k) (h2 : k < E.s.nZeta) (h5 : 0 ≤ n)
    (h6 : n < E.s.ntor + 1) :
    In (k * (E.s.nnyq2 + 1) + n) ((E.s.nnyq2 + 1) * E.s.nZeta) :=
  row' h1 h2 h5 (by have := F.nnyq2; omega)

/-- Fourier coefficients -/
theorem rowMn {j J m n : Int} (h1 : 0 ≤ j) (h2 : j < J) (h3 : 0 ≤ m) (h4 : m < E.s.mpol)
    (h5 : 0 ≤ n) (h6 : n < E.s.ntor + 1) :
    In ((j * E.s.mpol + m) * (E.s.ntor + 1) + n) (J * E.s.mpol * (E.s.ntor + 1)) := by
  have a := row h1 h2 h3 h4
  exact row a.lo a.hi h5 h6

theorem rowMn2 {j J m n : Int} (h1 : 0 ≤ j) (h2 : j < J) (h3 : 0 ≤ m) (h4 : m < E.s.mpol)
    (h5 : 0 ≤ n) (h6 : n < E.s.ntor + 1) :
    In ((j * E.s.mpol + m) * (E.s.ntor + 1) + n) (J * (E.s.ntor + 1) * E.s.mpol) := by
  have a := rowMn h1 h2 h3 h4 h5 h6
  have e : J * E.s.mpol * (E.s.ntor + 1) = J * (E.s.ntor + 1) * E.s.mpol := by ring
  rwa [e] at a

/-- Fourier coefficients addressed by `j * mnsize + mn` -/
theorem rowMnsize (F : Facts E) {j J m : Int} (h1 : 0 ≤ j) (h2 : j < J) (h3 : 0 ≤ m)
    (h4 : m < E.s.mnsize) : In (j * E.s.mnsize + m) (J * E.s.mpol * (E.s.ntor + 1)) := by
  have a := row h1 h2 h3 h4
  have e : J * E.s.mnsize = J * E.s.mpol * (E.s.ntor + 1) := by rw [F.mnsize]; ring
  rwa [e] at a

theorem rowMnsize2 (F : Facts E) {j J m : Int} (h1 : 0 ≤ j) (h2 : j < J) (h3 : 0 ≤ m)
    (h4 : m < E.s.mnsize) : In (j * E.s.mnsize + m) (J * (E.s.ntor + 1) * E.s.mpol) := by
  have a := rowMnsize F h1 h2 h3 h4
  have e : J * E.s.mpol * (E.s.ntor + 1) = J * (E.s.ntor + 1) * E.s.mpol := by ring
  rwa [e] at a

theorem kRev {n k : Int} (h1 : 0 ≤ k) (h2 : k < n) : 0 ≤ (n - k).tmod n ∧ (n - k).tmod n < n :=
  ⟨Int.tmod_nonneg _ (by omega), Int.tmod_lt_of_pos _ (by omega)⟩

theorem lRev {n l : Int} (h1 : 0 < n) (h2 : l ≤ n) :
    0 ≤ (n - l).tmod n ∧ (n - l).tmod n < n :=
  ⟨Int.tmod_nonneg _ (by omega), Int.tmod_lt_of_pos _ h1⟩

theorem vacIdx (F : Facts E) {kl : Int} (h1 : 0 ≤ kl) (h2 : kl < E.s.nZnT) :
    In (kl.tmod E.s.nThetaEff * E.s.nZeta + kl.tdiv E.s.nThetaEff) E.s.nZnT := by
  have f1 := F.redEff
  have f2 := F.red
  have f3 := F.even
  have q : 0 < E.s.nThetaEff := by omega
  have t := tm h1 q
  have d1 : 0 ≤ kl.tdiv E.s.nThetaEff := Int.tdiv_nonneg h1 (by omega)
  have d2 : kl.tdiv E.s.nThetaEff < E.s.nZeta := by
    rw [Int.tdiv_eq_ediv_of_nonneg h1]
    apply Int.ediv_lt_of_lt_mul q
    rw [← F.nznt]; exact h2
  rw [F.nznt]
  exact row' t.lo t.hi d1 d2

/-- `numFc` for the halo range of the geometry and the range of the forces -/
theorem numFc_geo : E.numFc E.r.nsMinF1 E.r.nsMaxF1 =
    (E.r.nsMaxF1 - E.r.nsMinF1) * E.s.mpol * (E.s.ntor + 1) := by
  unfold Env.numFc
  by_cases h : E.r.nsMaxF1 = E.ns <;> simp [h]

theorem numFc_frc (F : Facts E) : E.numFc E.r.nsMinF E.r.nsMaxF =
    (E.r.nsMaxFIncludingLcfs - E.r.nsMinF) * E.s.mpol * (E.s.ntor + 1) := by
  unfold Env.numFc
  by_cases h : E.r.nsMaxF1 = E.ns
  · simp [h, F.incl1 h]
  · simp [h, F.incl2 h]

theorem nHalf_eq : E.nHalf = E.s.nZnT * (E.r.nsMaxH - E.r.nsMinH) := Int.mul_comm _ _

/-- unfold a list of accesses to statements on single indices, equal ones once -/
macro "opn" F:term : tactic => `(tactic|
  (simp (config := { zeta := true }) only [Safe_append, Safe_loop, Safe_whenB, Safe_ite, Safe_nil,
      Safe_on, fill, seg, List.forall_mem_cons, List.forall_mem_append, List.not_mem_nil,
      forall_mem_par, false_imp_iff, forall_true_iff, Bool.and_eq_true, and_imp,
      implies_true, and_true, true_and, decide_eq_true_eq, bnd, Env.nrzt1, Env.nrzt,
      Env.nrztIncludingBoundary, nHalf_eq, numFc_geo, numFc_frc $F, and_self, and_self_left]
   have f1 := Facts.ns3 $F
   have f2 := Facts.minF $F
   have f3 := Facts.minMax $F
   have f4 := Facts.maxF $F
   have f5 := Facts.maxF1 $F
   have f6 := Facts.minF1 $F
   have f7 := Facts.minH $F
   have f8 := Facts.maxH $F
   have f9 := Facts.minFi $F
   have f10 := Facts.maxFi $F
   have f11 := Facts.incl1 $F
   have f12 := Facts.incl2 $F
   have f13 := Facts.first $F
   have f14 := Facts.notFirst $F
   have f15 := Facts.last $F
   have f16 := Facts.mpol $F
   have f17 := Facts.ntor $F
   have f18 := Facts.zeta $F
   have f19 := Facts.even $F
   have f20 := Facts.red $F
   have f21 := Facts.redEff $F
   have f22 := Facts.nzntEff $F
   have f23 := Facts.mnsize2 $F))

/-- close the statements on single indices; `F : Facts E` in scope -/
macro "leaf" F:term : tactic => `(tactic|
  (try refine In_ite (by assumption) ?_
   try refine In_ite (by assumption) ?_
   try have f24 := Facts.effA $F (by assumption)
   first
   | exact row' (by omega) (by omega) (by omega) (by omega)
   | exact tm (by omega) (by omega)
   | exact row3 $F (by omega) (by omega) (by omega) (by omega) (by omega) (by omega)
   | exact row3b $F (by omega) (by omega) (by omega) (by omega) (by omega) (by omega)
   | exact row3c $F (by omega) (by omega) (by omega) (by omega) (by omega) (by omega)
   | exact row2 $F (by omega) (by omega) (by omega) (by omega)
   | exact rowTheta $F (by omega) (by omega) (by omega) (by omega)
   | exact fillTheta $F (by omega) (by omega) (by omega)
   | exact rowMl $F (by omega) (by omega) (by omega) (by omega)
   | exact rowKn $F (by omega) (by omega) (by omega) (by omega)
   | exact rowMn (by omega) (by omega) (by omega) (by omega) (by omega) (by omega)
   | exact rowMn2 (by omega) (by omega) (by omega) (by omega) (by omega) (by omega)
   | exact rowMnsize $F (by omega) (by omega) (by omega) (by omega)
   | exact rowMnsize2 $F (by omega) (by omega) (by omega) (by omega)
   | exact row (by omega) (by omega) (by omega) (by omega)
   | exact vacIdx $F (by omega) (by omega)
   | exact In.of _ _ (by omega)
   | exact In.of _ _ ⟨by omega, Int.mul_pos (by omega) (by omega)⟩
   | exact In.of _ _ ⟨by omega, lt_of_lt_of_eq (by assumption) (Int.mul_comm _ _)⟩
   | exact In.of _ _ ⟨by omega, lt_of_lt_of_eq (by assumption) (by ring)⟩
   | exact row2 $F (kRev (by omega) (by omega)).1 (kRev (by omega) (by omega)).2 (by omega) (by omega)
   | exact row3b $F (by omega) (by omega) (kRev (by omega) (by omega)).1
       (kRev (by omega) (by omega)).2 (by omega) (by omega)
   | exact row3c $F (by omega) (by omega) (kRev (by omega) (by omega)).1
       (kRev (by omega) (by omega)).2 (by omega) (by omega)
   | exact row3b $F (by omega) (by omega) (kRev (by omega) (by omega)).1
       (kRev (by omega) (by omega)).2 (lRev (by omega) (by omega)).1
       (lt_of_lt_of_le (lRev (by omega) (by omega)).2 (by omega))
   | exact row3 $F (by omega) (by omega) (kRev (by omega) (by omega)).1
       (kRev (by omega) (by omega)).2 (lRev (by omega) (by omega)).1
       (lt_of_lt_of_le (lRev (by omega) (by omega)).2 (by omega))))

macro "leaves" F:term : tactic => `(tactic|
  (repeat' first | refine And.intro ?_ ?_ | intro _
   all_goals leaf $F))

theorem safe_rzCon (F : Facts E) : Safe E (rzConIntoVolume E) := by
  unfold rzConIntoVolume; opn F; leaves F

theorem safe_jacobian (F : Facts E) : Safe E (computeJacobian E) := by
  unfold computeJacobian; opn F; leaves F

theorem safe_metric (F : Facts E) : Safe E (computeMetricElements E) := by
  unfold computeMetricElements; opn F; leaves F

theorem safe_dV (F : Facts E) : Safe E (updateDifferentialVolume E) := by
  unfold updateDifferentialVolume; opn F; leaves F

theorem safe_volume (F : Facts E) : Safe E (volumeSum E) := by
  unfold volumeSum; opn F; leaves F

set_option maxHeartbeats 1000000 in
theorem safe_bContra (F : Facts E) : Safe E (computeBContra E) := by
  unfold computeBContra; opn F; leaves F

theorem safe_bCo (F : Facts E) : Safe E (computeBCo E) := by
  unfold computeBCo; opn F; leaves F

theorem safe_pressure (F : Facts E) : Safe E (pressureAndEnergies E) := by
  unfold pressureAndEnergies; opn F; leaves F

theorem safe_balance (F : Facts E) : Safe E (radialForceBalance E) := by
  unfold radialForceBalance; opn F; leaves F

theorem safe_vacuum (F : Facts E) : Safe E (vacuumPressure E) := by
  unfold vacuumPressure; opn F; leaves F

theorem safe_2dSymm (F : Facts E) : Safe E (dftFourierToReal2dSymm E) := by
  unfold dftFourierToReal2dSymm fourierToReal2d geoE geoO; opn F; leaves F

theorem safe_2dAsymm (F : Facts E) (ha : E.s.lasym = true) :
    Safe E (dftFourierToReal2dAsymm E) := by
  unfold dftFourierToReal2dAsymm fourierToReal2d geoAE geoAO; opn F; leaves F

theorem safe_3dSymm (F : Facts E) (h3 : E.s.lthreed = true) :
    Safe E (dftFourierToReal3dSymm E) := by
  unfold dftFourierToReal3dSymm fourierToReal3d geoE geoO geoVE geoVO; opn F; leaves F

theorem safe_3dAsymm (F : Facts E) (h3 : E.s.lthreed = true) (ha : E.s.lasym = true) :
    Safe E (dftFourierToReal3dAsymm E) := by
  unfold dftFourierToReal3dAsymm fourierToReal3d geoAE geoAO geoVAE geoVAO; opn F; leaves F

theorem safe_symrzl (F : Facts E) (ha : E.s.lasym = true) : Safe E (symrzl E) := by
  unfold symrzl symrzlLoop geoE geoO geoVE geoVO geoAE geoAO geoVAE geoVAO; opn F; leaves F

theorem safe_geometry (F : Facts E) : Safe E (geometryFromFourier E) := by
  have h1 := safe_2dSymm F
  have h2 := safe_3dSymm F
  have h3 := safe_2dAsymm F
  have h4 := safe_3dAsymm F
  have h5 := safe_symrzl F
  unfold geometryFromFourier
  generalize dftFourierToReal2dSymm E = x1 at *
  generalize dftFourierToReal3dSymm E = x2 at *
  generalize dftFourierToReal2dAsymm E = x3 at *
  generalize dftFourierToReal3dAsymm E = x4 at *
  generalize symrzl E = x5 at *
  opn F
  refine ⟨⟨⟨⟨⟨h2, fun _ => h1⟩, fun ha => ⟨⟨fun h => h4 h ha, fun _ => h3 ha⟩, h5 ha⟩⟩, ?_⟩, ?_⟩, ?_⟩
  all_goals leaves F

end Verif.Bounds
