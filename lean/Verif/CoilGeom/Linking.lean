import Verif.CoilGeom.Csv
import Verif.Makegrid.Props
import Mathlib.Analysis.SpecialFunctions.Trigonometric.Deriv
import Mathlib.Algebra.BigOperators.Fin
import Mathlib.Analysis.Calculus.Deriv.Prod

/-!
# C108: the linking current
-/

namespace Verif.CoilGeom

open Verif.Makegrid (V straightField cross C58_straight)
open Finset

/-! ## specification -/

/-- value of one coefficient at the toroidal angle `φ`: `c cos(n φ) + s sin(n φ)`, missing values as 0 -/
noncomputable def harmonic (c : Coef ℝ) (phi : ℝ) : ℝ :=
  c.cos.getD 0 * Real.cos (((c.mode.getD 0 : Int) : ℝ) * phi) + c.sin.getD 0 * Real.sin (((c.mode.getD 0 : Int) : ℝ) * phi)

/-- `R(φ)` -/
noncomputable def radius (c : Curve ℝ) (phi : ℝ) : ℝ := (c.r.map fun a => harmonic a phi).sum

/-- the closed curve in space -/
noncomputable def curveAt (c : Curve ℝ) (phi : ℝ) : V :=
  (radius c phi * Real.cos phi, radius c phi * Real.sin phi, (c.z.map fun a => harmonic a phi).sum)

/-! ## proofs -/

/-- derivative of a harmonic -/
noncomputable def harmonic' (c : Coef ℝ) (phi : ℝ) : ℝ :=
  c.cos.getD 0 * ((c.mode.getD 0 : Int) : ℝ) * (-Real.sin (((c.mode.getD 0 : Int) : ℝ) * phi)) +
    c.sin.getD 0 * ((c.mode.getD 0 : Int) : ℝ) * Real.cos (((c.mode.getD 0 : Int) : ℝ) * phi)

theorem harmonic_deriv (c : Coef ℝ) (phi : ℝ) : HasDerivAt (harmonic c) (harmonic' c phi) phi := by
  have hl : HasDerivAt (fun x : ℝ => ((c.mode.getD 0 : Int) : ℝ) * x) ((c.mode.getD 0 : Int) : ℝ) phi := by
    simpa using (hasDerivAt_id phi).const_mul ((c.mode.getD 0 : Int) : ℝ)
  have h1 := (hl.cos).const_mul (c.cos.getD 0)
  have h2 := (hl.sin).const_mul (c.sin.getD 0)
  refine (h1.add h2).congr_deriv ?_
  unfold harmonic'; ring

theorem sum_deriv (l : List (Coef ℝ)) (phi : ℝ) :
    HasDerivAt (fun x => (l.map fun a => harmonic a x).sum) (l.map fun a => harmonic' a phi).sum phi := by
  induction l with
  | nil => simpa using hasDerivAt_const phi (0 : ℝ)
  | cons a l ih =>
    simp only [List.map_cons, List.sum_cons]
    exact (harmonic_deriv a phi).add ih

theorem contrib_eq (co : Coef ℝ) (k dphi : ℝ) (p : ℝ × ℝ) :
    contrib co (co.n : ℝ) (Real.cos (k * (co.n : ℝ) * dphi)) (Real.sin (k * (co.n : ℝ) * dphi)) p =
      (p.1 + harmonic co (k * dphi), p.2 + harmonic' co (k * dphi)) := by
  obtain ⟨m, a, b⟩ := co
  obtain ⟨p1, p2⟩ := p
  have e : k * ((m.getD 0 : Int) : ℝ) * dphi = ((m.getD 0 : Int) : ℝ) * (k * dphi) := by ring
  cases a <;> cases b <;> simp only [contrib, harmonic, harmonic', Coef.n, Option.getD_some, Option.getD_none, e] <;>
    ext <;> dsimp only <;> ring

theorem acc_eq (k dphi : ℝ) (rs zs : List (Coef ℝ)) (h : List.Forall₂ (fun a b : Coef ℝ => a.mode = b.mode) rs zs)
    (a : Acc) : (rs.zip zs).foldl (accStep k dphi) a =
      ⟨a.r + (rs.map fun c => harmonic c (k * dphi)).sum, a.z + (zs.map fun c => harmonic c (k * dphi)).sum,
        a.tr + (rs.map fun c => harmonic' c (k * dphi)).sum, a.tz + (zs.map fun c => harmonic' c (k * dphi)).sum⟩ := by
  induction h generalizing a with
  | nil => simp
  | @cons r z rs zs hrz _ ih =>
    have hn : r.n = z.n := by unfold Coef.n; rw [hrz]
    rw [List.zip_cons_cons, List.foldl_cons, ih]
    have e : accStep k dphi a (r, z) = ⟨a.r + harmonic r (k * dphi), a.z + harmonic z (k * dphi),
        a.tr + harmonic' r (k * dphi), a.tz + harmonic' z (k * dphi)⟩ := by
      unfold accStep
      dsimp only
      rw [contrib_eq r]
      rw [hn, contrib_eq z]
    rw [e]
    simp only [List.map_cons, List.sum_cons, add_assoc]

/-- `C108`: the sample points lie on the curve, and what the code calls the tangent is the derivative of the curve with
    respect to the angle -/
theorem C108_tangent (c : Curve ℝ) (hc : Complete c) (k dphi : ℝ) :
    (pointTangent c k dphi).1 = curveAt c (k * dphi) ∧
      HasDerivAt (curveAt c) (pointTangent c k dphi).2 (k * dphi) := by
  have e := acc_eq k dphi c.r c.z (hc.2.imp fun _ _ h => h.2.2) ⟨0, 0, 0, 0⟩
  constructor
  · unfold pointTangent curveAt radius
    dsimp only
    rw [e]
    simp
  · have hr := sum_deriv c.r (k * dphi)
    have hz := sum_deriv c.z (k * dphi)
    have hx := hr.mul (Real.hasDerivAt_cos (k * dphi))
    have hy := hr.mul (Real.hasDerivAt_sin (k * dphi))
    refine (HasDerivAt.prodMk hx (HasDerivAt.prodMk hy hz)).congr_deriv ?_
    unfold pointTangent
    dsimp only
    rw [e]
    simp only [zero_add]
    ext
    · dsimp only; ring
    · rfl
    · rfl

theorem evalAll_ok (B : V → Outcome V) (b : V → V) (ps : List V) (h : ∀ p ∈ ps, B p = .ok (b p)) :
    evalAll B ps = .ok (ps.map b) := by
  induction ps with
  | nil => rfl
  | cons p ps ih =>
    rw [evalAll, h p (by simp), Outcome.bind_ok, ih fun q hq => h q (by simp [hq]), Outcome.bind_ok]
    rfl

theorem foldl_sum (l : List (V × V)) (s : ℝ) :
    l.foldl (fun s p => s + (p.1.1 * p.2.1 + p.1.2.1 * p.2.2.1 + p.1.2.2 * p.2.2.2)) s =
      s + (l.map fun p => inner3 p.1 p.2).sum := by
  induction l generalizing s with
  | nil => simp
  | cons a l ih =>
    rw [List.foldl_cons, ih, List.map_cons, List.sum_cons]
    unfold inner3
    ring

theorem maxMode_le (l : List (Coef ℝ × Coef ℝ)) (m : Int) :
    m ≤ l.foldl (fun m p => max (max m p.1.n) p.2.n) m ∧
      ∀ p ∈ l, p.1.n ≤ l.foldl (fun m p => max (max m p.1.n) p.2.n) m := by
  induction l generalizing m with
  | nil => exact ⟨le_refl _, fun p hp => by cases hp⟩
  | cons a l ih =>
    rw [List.foldl_cons]
    obtain ⟨h1, h2⟩ := ih (max (max m a.1.n) a.2.n)
    refine ⟨le_trans (le_trans (le_max_left _ _) (le_max_left _ _)) h1, fun p hp => ?_⟩
    rcases List.mem_cons.1 hp with rfl | hp
    · exact le_trans (le_trans (le_max_right _ _) (le_max_left _ _)) h1
    · exact h2 p hp

theorem maxMode_nonneg (c : Curve ℝ) : 0 ≤ maxMode c := (maxMode_le _ 0).1

theorem mem_zip_left {β : Type} {l : List β} {k : List β} (h : l.length = k.length) {a : β} (ha : a ∈ l) :
    ∃ b, (a, b) ∈ l.zip k := by
  induction l generalizing k with
  | nil => cases ha
  | cons x l ih =>
    cases k with
    | nil => simp at h
    | cons y k =>
      rcases List.mem_cons.1 ha with rfl | ha
      · exact ⟨y, by simp⟩
      · obtain ⟨b, hb⟩ := ih (by simpa using h) ha
        exact ⟨b, by simp [hb]⟩

/-- the number of points exceeds twice the Nyquist limit of every mode -/
theorem numPoints_spec (c : Curve ℝ) (hc : Complete c) (nfp : Int) (hn : 1 ≤ nfp) :
    0 < numPoints c nfp ∧ ∀ co ∈ c.r, 2 * (2 * co.n + 1) * nfp ≤ numPoints c nfp := by
  have h0 := maxMode_nonneg c
  unfold numPoints
  refine ⟨by positivity, fun co hco => ?_⟩
  obtain ⟨b, hb⟩ := mem_zip_left hc.2.length_eq hco
  have := (maxMode_le (c.r.zip c.z) 0).2 _ hb
  have h2 : co.n ≤ maxMode c := this
  nlinarith

/-- `C108`: for a complete curve and a known number of field periods the result is the trapezoidal sum of
    `∮ B · dX/dφ dφ`, over equidistant points more than twice above the Nyquist limit, divided by `μ0` -/
theorem C108_integral (B : V → Outcome V) (b : V → V) (nfp : Int) (hn : 1 ≤ nfp) (c : Curve ℝ) (hc : Complete c)
    (hB : ∀ phi, B (curveAt c phi) = .ok (b (curveAt c phi))) :
    ∃ (N : ℕ) (t : ℝ → V), 0 < N ∧ (∀ co ∈ c.r, 2 * (2 * co.mode.getD 0 + 1) * nfp ≤ (N : Int)) ∧
      (∀ k : ℕ, HasDerivAt (curveAt c) (t (k * (2 * Real.pi / N))) (k * (2 * Real.pi / N))) ∧
      linkingCurrent B nfp c = .ok (some ((∑ k ∈ range N,
        inner3 (b (curveAt c (k * (2 * Real.pi / N)))) (t (k * (2 * Real.pi / N)))) * (2 * Real.pi / N) / (4e-7 * Real.pi))) := by
  obtain ⟨hpos, hN⟩ := numPoints_spec c hc nfp hn
  obtain ⟨N, hNN⟩ := Int.eq_ofNat_of_zero_le hpos.le
  rw [hNN] at hN hpos
  have hpt := C108_tangent c hc
  have htan : ∀ k dphi : ℝ, (pointTangent c k dphi).2 = (pointTangent c (k * dphi) 1).2 := by
    intro k dphi
    have h1 := (hpt k dphi).2
    have h2 := (hpt (k * dphi) 1).2
    rw [mul_one] at h2
    exact h1.unique h2
  refine ⟨N, fun phi => (pointTangent c phi 1).2, by exact_mod_cast hpos, hN, fun k => ?_, ?_⟩
  · have := (hpt k (2 * Real.pi / N)).2
    rw [htan] at this
    exact this
  · unfold linkingCurrent
    rw [(C108_complete c).2 hc]
    dsimp only [Bool.not_true]
    rw [if_neg (by simp), hNN]
    rw [if_neg (by omega), Int.toNat_natCast]
    have e1 : ((List.range N).map fun k : ℕ => pointTangent c (k : ℝ) (2 * Real.pi / (((N : ℕ) : Int) : ℝ))).map Prod.fst =
        (List.range N).map fun k : ℕ => curveAt c (k * (2 * Real.pi / N)) := by
      rw [List.map_map]
      refine List.map_congr_left fun k _ => ?_
      simp only [Function.comp, Int.cast_natCast]
      exact (hpt _ _).1
    rw [e1, evalAll_ok B b _ (by
      intro p hp
      obtain ⟨k, -, rfl⟩ := List.mem_map.1 hp
      exact hB _)]
    dsimp only
    rw [if_neg (by omega), foldl_sum, zero_add]
    have e2 : (((List.range N).map fun k : ℕ => curveAt c (k * (2 * Real.pi / N))).map b).zip
        (((List.range N).map fun k : ℕ => pointTangent c (k : ℝ) (2 * Real.pi / (((N : ℕ) : Int) : ℝ))).map Prod.snd) =
        (List.range N).map fun k : ℕ => (b (curveAt c (k * (2 * Real.pi / N))), (pointTangent c (k * (2 * Real.pi / N)) 1).2) := by
      rw [List.map_map, List.map_map, List.zip_map', ]
      refine List.map_congr_left fun k _ => ?_
      simp only [Function.comp, Int.cast_natCast]
      rw [htan]
    rw [e2, List.map_map, Finset.sum_range, ← List.sum_ofFn, Int.cast_natCast]
    unfold kMu0
    congr 5
    rw [List.ofFn_eq_map]
    rw [← List.map_coe_finRange_eq_range, List.map_map]
    rfl

/-- `C108`: around a straight wire on the z axis the result is the current in the wire, exactly, whatever the shape of
    the curve, as long as it does not meet the axis (`mu0` is the constant of the field library) -/
theorem C108_wire (mu0 i z0 d : ℝ) (hd : 0 < d) (nfp : Int) (hn : 1 ≤ nfp) (c : Curve ℝ) (hc : Complete c)
    (hR : ∀ phi, radius c phi ≠ 0) :
    linkingCurrent (straightField mu0 (0, 0, z0) (0, 0, d) i) nfp c = .ok (some (i * (mu0 / (4e-7 * Real.pi)))) := by
  have hcross : ∀ phi, cross ((0, 0, d) : V) (curveAt c phi - (0, 0, z0)) =
      (-(d * (radius c phi * Real.sin phi)), d * (radius c phi * Real.cos phi), 0) := by
    intro phi
    simp [cross, curveAt]
  have hsq : ∀ phi, (d * (radius c phi * Real.sin phi)) ^ 2 + (d * (radius c phi * Real.cos phi)) ^ 2 =
      (d * radius c phi) ^ 2 := by
    intro phi
    linear_combination (d * radius c phi) ^ 2 * Real.sin_sq_add_cos_sq phi
  have hne : ∀ phi, cross ((0, 0, d) : V) (curveAt c phi - (0, 0, z0)) ≠ 0 := by
    intro phi h
    rw [hcross] at h
    have h1 : -(d * (radius c phi * Real.sin phi)) = 0 := congrArg (fun v : V => v.1) h
    have h2 : d * (radius c phi * Real.cos phi) = 0 := congrArg (fun v : V => v.2.1) h
    have h3 := hsq phi
    rw [neg_eq_zero.1 h1, h2] at h3
    have h4 : (d * radius c phi) ^ 2 = 0 := by rw [← h3]; ring
    have h5 : d * radius c phi = 0 := pow_eq_zero_iff two_ne_zero |>.1 h4
    rcases mul_eq_zero.1 h5 with h | h
    · exact hd.ne' h
    · exact hR phi h
  have hB := fun phi => C58_straight mu0 (0, 0, z0) (0, 0, d) i (curveAt c phi) (hne phi)
  obtain ⟨N, t, hN, -, ht, he⟩ := C108_integral (straightField mu0 (0, 0, z0) (0, 0, d) i)
    (fun p => (mu0 * i / (2 * Real.pi) *
      (Real.sqrt (((0, 0, d) : V).1 ^ 2 + ((0, 0, d) : V).2.1 ^ 2 + ((0, 0, d) : V).2.2 ^ 2) /
        ((cross ((0, 0, d) : V) (p - (0, 0, z0))).1 ^ 2 + (cross ((0, 0, d) : V) (p - (0, 0, z0))).2.1 ^ 2 +
          (cross ((0, 0, d) : V) (p - (0, 0, z0))).2.2 ^ 2))) • cross ((0, 0, d) : V) (p - (0, 0, z0))) nfp hn c hc hB
  rw [he]
  have hsum : ∀ k ∈ range N, inner3 ((mu0 * i / (2 * Real.pi) *
      (Real.sqrt (((0, 0, d) : V).1 ^ 2 + ((0, 0, d) : V).2.1 ^ 2 + ((0, 0, d) : V).2.2 ^ 2) /
        ((cross ((0, 0, d) : V) (curveAt c (k * (2 * Real.pi / N)) - (0, 0, z0))).1 ^ 2 +
          (cross ((0, 0, d) : V) (curveAt c (k * (2 * Real.pi / N)) - (0, 0, z0))).2.1 ^ 2 +
          (cross ((0, 0, d) : V) (curveAt c (k * (2 * Real.pi / N)) - (0, 0, z0))).2.2 ^ 2))) •
        cross ((0, 0, d) : V) (curveAt c (k * (2 * Real.pi / N)) - (0, 0, z0))) (t (k * (2 * Real.pi / N))) =
      mu0 * i / (2 * Real.pi) := by
    intro k _
    set phi : ℝ := k * (2 * Real.pi / N) with hphi
    have htt : t phi = (pointTangent c phi 1).2 := by
      have h2 := (C108_tangent c hc phi 1).2
      rw [mul_one] at h2
      exact (ht k).unique h2
    have e := acc_eq phi 1 c.r c.z (hc.2.imp fun _ _ h => h.2.2) ⟨0, 0, 0, 0⟩
    rw [htt, hcross]
    unfold pointTangent
    dsimp only
    rw [e]
    simp only [zero_add, mul_one]
    change inner3 _ (_ - radius c phi * Real.sin phi, _ + radius c phi * Real.cos phi, _) = _
    rw [show (0 : ℝ) ^ 2 = 0 by norm_num, zero_add, zero_add, Real.sqrt_sq hd.le, neg_sq, hsq, add_zero]
    simp only [inner3, Prod.smul_mk, smul_eq_mul]
    have hRp := hR phi
    have hd' := hd.ne'
    have hpi := Real.pi_ne_zero
    field_simp
    have := Real.sin_sq_add_cos_sq phi
    linear_combination (mu0 * i * d * radius c phi ^ 2) * this
  rw [Finset.sum_congr rfl hsum, Finset.sum_const, Finset.card_range, nsmul_eq_mul]
  have hNr : (N : ℝ) ≠ 0 := by exact_mod_cast hN.ne'
  have hpi := Real.pi_ne_zero
  congr 2
  field_simp

/-- `C108`: superposition: the linking current of two sets of coils is the sum of their linking currents -/
theorem C108_superposition (b1 b2 : V → V) (nfp : Int) (hn : 1 ≤ nfp) (c : Curve ℝ) (hc : Complete c) :
    ∃ i1 i2, linkingCurrent (fun p => .ok (b1 p)) nfp c = .ok (some i1) ∧
      linkingCurrent (fun p => .ok (b2 p)) nfp c = .ok (some i2) ∧
      linkingCurrent (fun p => .ok (b1 p + b2 p)) nfp c = .ok (some (i1 + i2)) := by
  have key : ∀ b : V → V, linkingCurrent (fun p => .ok (b p)) nfp c = .ok (some ((∑ k ∈ range (numPoints c nfp).toNat,
      inner3 (b (curveAt c (k * (2 * Real.pi / (numPoints c nfp).toNat))))
        (pointTangent c (k * (2 * Real.pi / (numPoints c nfp).toNat)) 1).2) *
      (2 * Real.pi / (numPoints c nfp).toNat) / kMu0)) := by
    intro b
    obtain ⟨hpos, -⟩ := numPoints_spec c hc nfp hn
    obtain ⟨N, hNN⟩ := Int.eq_ofNat_of_zero_le hpos.le
    rw [hNN] at hpos
    have hpt := C108_tangent c hc
    have htan : ∀ k dphi : ℝ, (pointTangent c k dphi).2 = (pointTangent c (k * dphi) 1).2 := by
      intro k dphi
      have h1 := (hpt k dphi).2
      have h2 := (hpt (k * dphi) 1).2
      rw [mul_one] at h2
      exact h1.unique h2
    unfold linkingCurrent
    rw [(C108_complete c).2 hc]
    dsimp only [Bool.not_true]
    rw [if_neg (by simp), hNN]
    rw [if_neg (by omega), Int.toNat_natCast]
    rw [evalAll_ok _ b _ (fun p _ => rfl)]
    dsimp only
    rw [if_neg (by omega), foldl_sum, zero_add, List.map_map, List.map_map, List.map_map, List.zip_map', List.map_map,
      Finset.sum_range, ← List.sum_ofFn, Int.cast_natCast, List.ofFn_eq_map, ← List.map_coe_finRange_eq_range, List.map_map]
    congr 6
    funext k
    simp only [Function.comp]
    rw [(hpt _ _).1, htan]
  refine ⟨_, _, key b1, key b2, ?_⟩
  rw [key fun p => b1 p + b2 p]
  congr 2
  rw [← add_div, ← add_mul, ← Finset.sum_add_distrib]
  congr 2
  refine Finset.sum_congr rfl fun k _ => ?_
  simp only [inner3, Prod.fst_add, Prod.snd_add]
  ring

/-- `C108`: a table written and read back describes the same curve, if printing and reading restores each number -/
theorem C108_same_curve {c c' : Curve ℝ} (h1 : List.Forall₂ (ReadBack id) c.r c'.r)
    (h2 : List.Forall₂ (ReadBack id) c.z c'.z) (phi : ℝ) : curveAt c' phi = curveAt c phi := by
  have key : ∀ l l' : List (Coef ℝ), List.Forall₂ (ReadBack id) l l' →
      (l'.map fun a => harmonic a phi).sum = (l.map fun a => harmonic a phi).sum := by
    intro l l' h
    induction h with
    | nil => rfl
    | cons e _ ih =>
      rw [List.map_cons, List.map_cons, List.sum_cons, List.sum_cons, ih]
      unfold harmonic
      rw [e.1, e.2.1, e.2.2]
      rfl
  unfold curveAt radius
  rw [key _ _ h1, key _ _ h2]

/-! ## what fails -/

/-- `C108` fails: with the number of field periods not set (0) there are no points and the result is NaN, without any
    error -/
theorem C108_no_periods (B : V → Outcome V) (c : Curve ℝ) (hc : Complete c) : linkingCurrent B 0 c = .ok none := by
  have h : numPoints c 0 = 0 := by unfold numPoints; ring
  unfold linkingCurrent
  rw [(C108_complete c).2 hc]
  simp [h, evalAll]

/-- `C108` fails: negative mode numbers do not count, so the number of points can be far below the Nyquist limit -/
theorem C108_negative_modes (m : Int) (hm : m ≤ 0) (a b : ℝ) :
    numPoints ⟨[⟨some 0, some a, none⟩, ⟨some m, some b, none⟩], [⟨some 0, some 0, none⟩, ⟨some m, none, some b⟩]⟩ 1 = 2 := by
  simp [numPoints, maxMode, Coef.n, hm]

/-- `C108` fails: the mode numbers are not multiplied by the number of field periods, as those of a VMEC axis have to be
    (`R(φ) = Σ c cos(n N_fp φ)`); the curve integrated along does not have the symmetry of the machine: one field period
    further on its radius is another -/
theorem C108_not_periodic :
    radius ⟨[⟨some 0, some 5, none⟩, ⟨some 1, some 1, none⟩], [⟨some 0, some 0, none⟩, ⟨some 1, none, some 1⟩]⟩ 0 = 6 ∧
      radius ⟨[⟨some 0, some 5, none⟩, ⟨some 1, some 1, none⟩], [⟨some 0, some 0, none⟩, ⟨some 1, none, some 1⟩]⟩
        (0 + 2 * Real.pi / 2) = 4 := by
  constructor
  · norm_num [radius, harmonic]
  · have : (0 : ℝ) + 2 * Real.pi / 2 = Real.pi := by ring
    rw [this]
    norm_num [radius, harmonic]

/-- an axis around the wire -/
example : Complete (⟨[⟨some 0, some 5, none⟩, ⟨some 1, some 1, none⟩],
      [⟨some 0, some 0, none⟩, ⟨some 1, none, some 1⟩]⟩ : Curve ℝ) ∧
    ∀ phi, radius ⟨[⟨some 0, some 5, none⟩, ⟨some 1, some 1, none⟩],
      [⟨some 0, some 0, none⟩, ⟨some 1, none, some 1⟩]⟩ phi ≠ 0 := by
  refine ⟨by simp [Complete], fun phi => ?_⟩
  have := Real.neg_one_le_cos phi
  simp [radius, harmonic]
  linarith

end Verif.CoilGeom
