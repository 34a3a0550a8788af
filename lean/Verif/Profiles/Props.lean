import Verif.Profiles.Horner

/-!
# C30, C34, C53: polynomial and closed-form profiles, profile names
-/
namespace Verif.Profiles
open Verif

/-- the polynomial with coefficients `c_0 … c_{n-1}` -/
noncomputable def poly (c : RVec) (x : ℝ) : ℝ := ∑ k ∈ Finset.range c.n.toNat, c.v k * x ^ k

/-! ## C30 -/

theorem C30_power_series (c : RVec) (x : ℝ) : evalPowerSeries c x false = poly c x := by
  unfold evalPowerSeries poly
  simpa using horner0 c.n c.v x

theorem evalPowerSeries_int (c : RVec) (x : ℝ) :
    evalPowerSeries c x true = ∑ k ∈ Finset.range c.n.toNat, c.v k / ((k : ℝ) + 1) * x ^ (k + 1) := by
  unfold evalPowerSeries
  have h := horner0 c.n (fun i => c.v i / ((i + 1 : Int) : ℝ)) x
  simp only [if_true] at h ⊢
  rw [h, Finset.sum_mul]
  refine Finset.sum_congr rfl fun k _ => ?_
  push_cast; ring

/-- the integrated power series is the integral of the power series -/
theorem C30_power_series_integrated (c : RVec) (x : ℝ) :
    evalPowerSeries c x true = ∫ t in (0 : ℝ)..x, poly c t := by
  rw [evalPowerSeries_int]
  unfold poly
  rw [intervalIntegral.integral_finset_sum]
  · refine Finset.sum_congr rfl fun k _ => ?_
    rw [intervalIntegral.integral_const_mul, integral_pow]
    simp; ring
  · intro k _
    exact (Continuous.intervalIntegrable (by fun_prop) _ _)

/-- `power_series_i` is `x` times the polynomial -/
theorem C30_power_series_i (c : RVec) (x : ℝ) : evalPowerSeriesI c x = x * poly c x := by
  unfold evalPowerSeriesI poly
  rw [hornerI, Finset.mul_sum]
  refine Finset.sum_congr rfl fun k _ => ?_
  ring

theorem torflux_eq (c : RVec) (x : ℝ) :
    torflux c x = ∑ k ∈ Finset.range c.n.toNat, c.v k * x ^ (k + 1) := by
  unfold torflux
  rw [horner0, Finset.sum_mul]
  refine Finset.sum_congr rfl fun k _ => ?_
  ring

theorem torfluxDeriv_eq (c : RVec) (x : ℝ) :
    torfluxDeriv c x = ∑ k ∈ Finset.range c.n.toNat, ((k : ℝ) + 1) * c.v k * x ^ k := by
  unfold torfluxDeriv
  have h := horner0 c.n (fun i => ((i + 1 : Int) : ℝ) * c.v i) x
  rw [h]
  refine Finset.sum_congr rfl fun k _ => ?_
  push_cast; ring

/-- `torfluxDeriv` is the derivative of `torflux` everywhere -/
theorem C30_torflux_hasDerivAt (c : RVec) (x : ℝ) : HasDerivAt (torflux c) (torfluxDeriv c x) x := by
  have e : torflux c = fun x => ∑ k ∈ Finset.range c.n.toNat, c.v k * x ^ (k + 1) :=
    funext (torflux_eq c)
  rw [e, torfluxDeriv_eq]
  refine HasDerivAt.fun_sum fun k _ => ?_
  have := (hasDerivAt_pow (k + 1) x).const_mul (c.v k)
  refine this.congr_deriv ?_
  rw [Nat.add_sub_cancel]; push_cast; ring

theorem torfluxDeriv_continuous (c : RVec) : Continuous (torfluxDeriv c) := by
  have e : torfluxDeriv c = fun x => ∑ k ∈ Finset.range c.n.toNat, ((k : ℝ) + 1) * c.v k * x ^ k :=
    funext (torfluxDeriv_eq c)
  rw [e]; fun_prop

/-- `torflux` is the integral of `torfluxDeriv` from the axis -/
theorem C30_torflux_integral (c : RVec) (x : ℝ) : torflux c x = ∫ t in (0 : ℝ)..x, torfluxDeriv c t := by
  rw [intervalIntegral.integral_eq_sub_of_hasDerivAt (fun t _ => C30_torflux_hasDerivAt c t)
    ((torfluxDeriv_continuous c).intervalIntegrable _ _)]
  simp [torflux]

/-- the enclosed toroidal flux is 0 at the axis and the given edge flux at the boundary, whatever the
    coefficients `aphi` are, unless they cancel at the edge -/
theorem C30_enclosed_flux (aphi : RVec) (signJ phiedge : ℝ) (h : poly aphi 1 ≠ 0) :
    maxToroidalFlux aphi signJ phiedge * torflux aphi 0 = 0 ∧
    maxToroidalFlux aphi signJ phiedge * torflux aphi 1 = signJ * phiedge / (2 * Real.pi) := by
  have h1 : torflux aphi 1 = poly aphi 1 := by rw [torflux_eq]; simp [poly]
  refine ⟨by simp [torflux], ?_⟩
  unfold maxToroidalFlux
  rw [h1]
  simp only [ne_eq, h, not_false_eq_true, if_true]
  field_simp

/-- the flux map itself runs from 0 to 1 when the coefficients sum to one. The full claim of C30 (value 1
    at 1 for all coefficients) is false, see `C30_flux_map_not_normalised`. -/
theorem C30_flux_map_partial (aphi : RVec) (h : poly aphi 1 = 1) :
    torflux aphi 0 = 0 ∧ torflux aphi 1 = 1 ∧ evalPosition aphi 0 = 0 ∧ evalPosition aphi 1 = 1 := by
  have h1 : torflux aphi 1 = poly aphi 1 := by rw [torflux_eq]; simp [poly]
  have h0 : torflux aphi 0 = 0 := by simp [torflux]
  refine ⟨h0, by rw [h1, h], by simp [evalPosition, h0], by simp [evalPosition, h1, h]⟩

example : poly ⟨2, fun i => if i = 0 then 3/4 else 1/4⟩ 1 = 1 := by
  simp [poly, Finset.sum_range_succ]; norm_num

/-- F28: with `aphi = [2]` the map is `2 x`, so that on the whole outer half of the volume every profile is
    evaluated at the edge -/
theorem C30_flux_map_not_normalised :
    ∃ aphi : RVec, torflux aphi 1 = 2 ∧ ∀ x : ℝ, 1 / 2 ≤ x → evalPosition aphi x = 1 := by
  refine ⟨⟨1, fun _ => 2⟩, by rw [torflux_eq]; simp, fun x hx => ?_⟩
  unfold evalPosition
  rw [torflux_eq]
  simp only [Int.toNat_one, Finset.range_one, Finset.sum_singleton, zero_add, pow_one]
  exact min_eq_right (by linarith)

example : evalPowerSeries ⟨3, fun i => i + 1⟩ 2 false = 17 := by
  rw [C30_power_series]; simp [poly, Finset.sum_range_succ]; norm_num
example : evalPowerSeries ⟨2, fun i => i + 1⟩ 2 true = 6 := by
  rw [evalPowerSeries_int]; simp [Finset.sum_range_succ]; norm_num
example : evalPowerSeries ⟨0, fun i => i + 1⟩ 2 false = 0 := by
  rw [C30_power_series]; simp [poly]

/-! ## C34 -/

theorem go_eq (name : String) (k : Kind) (l : List Param) (i : Nat) :
    findParameterization.go name k i l =
      match l.findIdx? (fun p => name = p.name) with
      | none => 0
      | some j => if (l[j]?.map (fun p => p.allowed k)).getD false then i + j else 0 := by
  induction l generalizing i with
  | nil => simp [findParameterization.go]
  | cons p l ih =>
    unfold findParameterization.go
    by_cases h : name = p.name
    · simp [h, List.findIdx?_cons]
    · rw [if_neg h, ih, List.findIdx?_cons]
      simp only [h, decide_false, Bool.false_eq_true, if_false]
      cases List.findIdx? (fun p => decide (name = p.name)) l with
      | none => simp
      | some j =>
        simp only [List.getElem?_cons_succ, Option.map_some]
        have e : i + 1 + j = i + (j + 1) := by omega
        rw [e]

theorem names_nodup : (allParams.map Param.name).Nodup := by decide +kernel

/-- a name that is in the table and allowed for the kind selects its own entry -/
theorem C34_known_name (k : Kind) (i : Nat) (p : Param) (hp : allParams[i]? = some p)
    (ha : p.allowed k = true) : findParameterization p.name k = i := by
  unfold findParameterization
  rw [go_eq]
  have hi : i < allParams.length := by
    by_contra h
    rw [List.getElem?_eq_none (by omega)] at hp
    exact absurd hp (by simp)
  have hpi : allParams[i] = p := by
    rw [List.getElem?_eq_getElem hi] at hp; exact Option.some.inj hp
  have hf : allParams.findIdx? (fun q => p.name = q.name) = some i := by
    rw [List.findIdx?_eq_some_iff_getElem]
    refine ⟨hi, by simp [hpi], fun j hj => ?_⟩
    simp only [decide_eq_true_eq]
    intro hc
    have := names_nodup
    rw [List.nodup_iff_injective_get] at this
    have e : (⟨j, by simp; omega⟩ : Fin (allParams.map Param.name).length) = ⟨i, by simp; omega⟩ := by
      apply this
      simp only [List.get_eq_getElem, List.getElem_map]
      rw [← hc, hpi]
    simp at e; omega
  rw [hf]
  simp [hp, ha]

/-- the result is an entry of the table with that name, allowed for that kind, or `INVALID_PARAM`; and it is
    `INVALID_PARAM` exactly if there is no such entry -/
theorem C34_result (name : String) (k : Kind) :
    (findParameterization name k = 0 ∧ ¬ ∃ p ∈ allParams, p.name = name ∧ p.allowed k = true) ∨
    (∃ p, allParams[findParameterization name k]? = some p ∧ p.name = name ∧ p.allowed k = true ∧
      findParameterization name k ≠ 0) := by
  by_cases h : ∃ p ∈ allParams, p.name = name ∧ p.allowed k = true
  · right
    obtain ⟨p, hp, hn, ha⟩ := h
    obtain ⟨i, hi, e⟩ := List.getElem_of_mem hp
    have hi' : allParams[i]? = some p := by rw [List.getElem?_eq_getElem hi, e]
    have := C34_known_name k i p hi' ha
    rw [hn] at this
    refine ⟨p, by rw [this]; exact hi', hn, ha, ?_⟩
    rw [this]
    intro h0
    subst h0
    have : p = ⟨"---invalid---", false, false, false⟩ := by
      simpa [allParams] using hi'.symm
    subst this
    cases k <;> simp [Param.allowed] at ha
  · left
    refine ⟨?_, h⟩
    unfold findParameterization
    rw [go_eq]
    cases hf : allParams.findIdx? (fun q => name = q.name) with
    | none => rfl
    | some j =>
      rw [List.findIdx?_eq_some_iff_getElem] at hf
      obtain ⟨hj, hn, _⟩ := hf
      simp only [decide_eq_true_eq] at hn
      simp only [List.getElem?_eq_getElem hj, Option.map_some, Option.getD_some, Nat.zero_add]
      rw [if_neg]
      intro ha
      exact h ⟨_, List.getElem_mem hj, hn.symm, ha⟩

/-- the evaluation documented for a name (table 290-315): an `I-prime` current is integrated -/
noncomputable def documented (q : Quadrature) (p : ProfileIn) (x : ℝ) : Kind → String → Option (Outcome ℝ)
  | .pressure, "power_series" => some (.ok (evalPowerSeries p.coeffs x false))
  | .pressure, "gauss_trunc" => some (.ok (evalGaussTrunc q p.coeffs x false))
  | .pressure, "two_lorentz" => some (.ok (evalTwoLorentz p.coeffs x))
  | .pressure, "two_power" => some (.ok (evalTwoPower q p.coeffs x false))
  | .pressure, "two_power_gs" => some (.ok (evalTwoPowerGs q p.coeffs x false))
  | .pressure, "akima_spline" => some (.ok (evalAkima p.knots p.values x))
  | .pressure, "cubic_spline" => some (.ok (evalCubic p.knots p.values x))
  | .pressure, "pedestal" => some (.ok (evalPedestalPressure p.coeffs x))
  | .pressure, "rational" => some (.ok (evalRational p.coeffs x))
  | .pressure, "line_segment" => some (.ok (evalLineSegment p.knots p.values x))
  | .iota, "power_series" => some (.ok (evalPowerSeries p.coeffs x false))
  | .iota, "sum_atan" => some (.ok (evalSumAtan p.coeffs x))
  | .iota, "akima_spline" => some (.ok (evalAkima p.knots p.values x))
  | .iota, "cubic_spline" => some (.ok (evalCubic p.knots p.values x))
  | .iota, "rational" => some (.ok (evalRational p.coeffs x))
  | .iota, "line_segment" => some (.ok (evalLineSegment p.knots p.values x))
  | .iota, "nice_quadratic" => some (.ok (evalNiceQuadratic p.coeffs x))
  | .current, "power_series" => some (.ok (evalPowerSeries p.coeffs x true))
  | .current, "power_series_i" => some (.ok (evalPowerSeriesI p.coeffs x))
  | .current, "gauss_trunc" => some (.ok (evalGaussTrunc q p.coeffs x true))
  | .current, "sum_atan" => some (.ok (evalSumAtan p.coeffs x))
  | .current, "two_power" => some (.ok (evalTwoPower q p.coeffs x true))
  | .current, "two_power_gs" => some (.ok (evalTwoPowerGs q p.coeffs x true))
  | .current, "akima_spline_i" => some (.ok (evalAkima p.knots p.values x))
  | .current, "akima_spline_ip" => some (.ok (evalAkimaIntegrated p.knots p.values x))
  | .current, "cubic_spline_i" => some (.ok (evalCubic p.knots p.values x))
  | .current, "cubic_spline_ip" => some (.ok (evalCubicIntegrated p.knots p.values x))
  | .current, "pedestal" => some (.ok (evalPedestalCurrent p.coeffs x))
  | .current, "rational" => some (.ok (evalRational p.coeffs x))
  | .current, "line_segment_i" => some (.ok (evalLineSegment p.knots p.values x))
  | .current, "line_segment_ip" => some (evalLineSegmentIntegrated p.knots p.values x)
  | _, _ => none

/-- every documented name evaluates the documented function, for all data and positions. Missing for the full
    claim: other names are rejected with an error (false, see `C34_unknown_name_is_zero`). -/
theorem C34_documented_partial (q : Quadrature) (p : ProfileIn) (bloat s x : ℝ) (r : Outcome ℝ) :
    (documented q p (min |x * bloat| 1) .pressure p.name = some r →
      evalMassProfile q p bloat s x = (do let v ← r; pure (v * s))) ∧
    (documented q p x .iota p.name = some r → evalIotaProfile q p x = r) ∧
    (documented q p (min |x * bloat| 1) .current p.name = some r → evalCurrProfile q p bloat x = r) := by
  refine ⟨fun h => ?_, fun h => ?_, fun h => ?_⟩
  · unfold evalMassProfile
    unfold documented at h
    split at h
    all_goals first
      | (simp at h; done)
      | (rename_i hk hn; exact absurd hk (by decide))
      | (have hn : p.name = "power_series" := by assumption
         rw [hn, show findParameterization "power_series" .pressure = 1 from by decide +kernel]
         obtain rfl := Option.some.inj h
         rfl)
      | (have hn : p.name = "gauss_trunc" := by assumption
         rw [hn, show findParameterization "gauss_trunc" .pressure = 3 from by decide +kernel]
         obtain rfl := Option.some.inj h
         rfl)
      | (have hn : p.name = "two_lorentz" := by assumption
         rw [hn, show findParameterization "two_lorentz" .pressure = 5 from by decide +kernel]
         obtain rfl := Option.some.inj h
         rfl)
      | (have hn : p.name = "two_power" := by assumption
         rw [hn, show findParameterization "two_power" .pressure = 6 from by decide +kernel]
         obtain rfl := Option.some.inj h
         rfl)
      | (have hn : p.name = "two_power_gs" := by assumption
         rw [hn, show findParameterization "two_power_gs" .pressure = 7 from by decide +kernel]
         obtain rfl := Option.some.inj h
         rfl)
      | (have hn : p.name = "akima_spline" := by assumption
         rw [hn, show findParameterization "akima_spline" .pressure = 8 from by decide +kernel]
         obtain rfl := Option.some.inj h
         rfl)
      | (have hn : p.name = "cubic_spline" := by assumption
         rw [hn, show findParameterization "cubic_spline" .pressure = 11 from by decide +kernel]
         obtain rfl := Option.some.inj h
         rfl)
      | (have hn : p.name = "pedestal" := by assumption
         rw [hn, show findParameterization "pedestal" .pressure = 14 from by decide +kernel]
         obtain rfl := Option.some.inj h
         rfl)
      | (have hn : p.name = "rational" := by assumption
         rw [hn, show findParameterization "rational" .pressure = 15 from by decide +kernel]
         obtain rfl := Option.some.inj h
         rfl)
      | (have hn : p.name = "line_segment" := by assumption
         rw [hn, show findParameterization "line_segment" .pressure = 16 from by decide +kernel]
         obtain rfl := Option.some.inj h
         rfl)
  · unfold evalIotaProfile
    unfold documented at h
    split at h
    all_goals first
      | (simp at h; done)
      | (rename_i hk hn; exact absurd hk (by decide))
      | (have hn : p.name = "power_series" := by assumption
         rw [hn, show findParameterization "power_series" .iota = 1 from by decide +kernel]
         obtain rfl := Option.some.inj h
         rfl)
      | (have hn : p.name = "sum_atan" := by assumption
         rw [hn, show findParameterization "sum_atan" .iota = 4 from by decide +kernel]
         obtain rfl := Option.some.inj h
         rfl)
      | (have hn : p.name = "akima_spline" := by assumption
         rw [hn, show findParameterization "akima_spline" .iota = 8 from by decide +kernel]
         obtain rfl := Option.some.inj h
         rfl)
      | (have hn : p.name = "cubic_spline" := by assumption
         rw [hn, show findParameterization "cubic_spline" .iota = 11 from by decide +kernel]
         obtain rfl := Option.some.inj h
         rfl)
      | (have hn : p.name = "rational" := by assumption
         rw [hn, show findParameterization "rational" .iota = 15 from by decide +kernel]
         obtain rfl := Option.some.inj h
         rfl)
      | (have hn : p.name = "line_segment" := by assumption
         rw [hn, show findParameterization "line_segment" .iota = 16 from by decide +kernel]
         obtain rfl := Option.some.inj h
         rfl)
      | (have hn : p.name = "nice_quadratic" := by assumption
         rw [hn, show findParameterization "nice_quadratic" .iota = 19 from by decide +kernel]
         obtain rfl := Option.some.inj h
         rfl)
  · unfold evalCurrProfile
    unfold documented at h
    split at h
    all_goals first
      | (simp at h; done)
      | (rename_i hk hn; exact absurd hk (by decide))
      | (have hn : p.name = "power_series" := by assumption
         rw [hn, show findParameterization "power_series" .current = 1 from by decide +kernel]
         obtain rfl := Option.some.inj h
         rfl)
      | (have hn : p.name = "power_series_i" := by assumption
         rw [hn, show findParameterization "power_series_i" .current = 2 from by decide +kernel]
         obtain rfl := Option.some.inj h
         rfl)
      | (have hn : p.name = "gauss_trunc" := by assumption
         rw [hn, show findParameterization "gauss_trunc" .current = 3 from by decide +kernel]
         obtain rfl := Option.some.inj h
         rfl)
      | (have hn : p.name = "sum_atan" := by assumption
         rw [hn, show findParameterization "sum_atan" .current = 4 from by decide +kernel]
         obtain rfl := Option.some.inj h
         rfl)
      | (have hn : p.name = "two_power" := by assumption
         rw [hn, show findParameterization "two_power" .current = 6 from by decide +kernel]
         obtain rfl := Option.some.inj h
         rfl)
      | (have hn : p.name = "two_power_gs" := by assumption
         rw [hn, show findParameterization "two_power_gs" .current = 7 from by decide +kernel]
         obtain rfl := Option.some.inj h
         rfl)
      | (have hn : p.name = "akima_spline_i" := by assumption
         rw [hn, show findParameterization "akima_spline_i" .current = 9 from by decide +kernel]
         obtain rfl := Option.some.inj h
         rfl)
      | (have hn : p.name = "akima_spline_ip" := by assumption
         rw [hn, show findParameterization "akima_spline_ip" .current = 10 from by decide +kernel]
         obtain rfl := Option.some.inj h
         rfl)
      | (have hn : p.name = "cubic_spline_i" := by assumption
         rw [hn, show findParameterization "cubic_spline_i" .current = 12 from by decide +kernel]
         obtain rfl := Option.some.inj h
         rfl)
      | (have hn : p.name = "cubic_spline_ip" := by assumption
         rw [hn, show findParameterization "cubic_spline_ip" .current = 13 from by decide +kernel]
         obtain rfl := Option.some.inj h
         rfl)
      | (have hn : p.name = "pedestal" := by assumption
         rw [hn, show findParameterization "pedestal" .current = 14 from by decide +kernel]
         obtain rfl := Option.some.inj h
         rfl)
      | (have hn : p.name = "rational" := by assumption
         rw [hn, show findParameterization "rational" .current = 15 from by decide +kernel]
         obtain rfl := Option.some.inj h
         rfl)
      | (have hn : p.name = "line_segment_i" := by assumption
         rw [hn, show findParameterization "line_segment_i" .current = 17 from by decide +kernel]
         obtain rfl := Option.some.inj h
         rfl)
      | (have hn : p.name = "line_segment_ip" := by assumption
         rw [hn, show findParameterization "line_segment_ip" .current = 18 from by decide +kernel]
         obtain rfl := Option.some.inj h
         rfl)

example (q : Quadrature) (p : ProfileIn) (h : p.name = "two_power") (x : ℝ) :
    documented q p x .current p.name = some (.ok (evalTwoPower q p.coeffs x true)) := by rw [h]; rfl

/-- F15: the claim that unknown names are rejected is false: for every name that is not in the table or not
    allowed for pressure, the pressure is 0 everywhere and no error is reported; likewise for the others -/
theorem C34_unknown_name_is_zero (q : Quadrature) (p : ProfileIn) (bloat s x : ℝ) :
    ((¬ ∃ r ∈ allParams, r.name = p.name ∧ r.allowed .pressure = true) → evalMassProfile q p bloat s x = .ok 0) ∧
    ((¬ ∃ r ∈ allParams, r.name = p.name ∧ r.allowed .iota = true) → evalIotaProfile q p x = .ok 0) ∧
    ((¬ ∃ r ∈ allParams, r.name = p.name ∧ r.allowed .current = true) → evalCurrProfile q p bloat x = .ok 0) := by
  refine ⟨fun h => ?_, fun h => ?_, fun h => ?_⟩
  · rcases C34_result p.name .pressure with ⟨h0, _⟩ | ⟨r, hr, hn, ha, _⟩
    · unfold evalMassProfile; rw [h0]; simp [evalProfileFunction, Outcome.bind_ok, Outcome.pure_eq]
    · exact absurd ⟨r, List.mem_of_getElem? hr, hn, ha⟩ h
  · rcases C34_result p.name .iota with ⟨h0, _⟩ | ⟨r, hr, hn, ha, _⟩
    · unfold evalIotaProfile; rw [h0]; simp [evalProfileFunction]
    · exact absurd ⟨r, List.mem_of_getElem? hr, hn, ha⟩ h
  · rcases C34_result p.name .current with ⟨h0, _⟩ | ⟨r, hr, hn, ha, _⟩
    · unfold evalCurrProfile; rw [h0]; simp [evalProfileFunction]
    · exact absurd ⟨r, List.mem_of_getElem? hr, hn, ha⟩ h

/-- a misspelt name meets the hypothesis -/
example : ¬ ∃ r ∈ allParams, r.name = "powerseries" ∧ r.allowed .pressure = true := by decide +kernel

/-- the three `sum_cossq_*` names are accepted for the current but evaluate to 0 -/
theorem C34_unimplemented_is_zero (q : Quadrature) (p : ProfileIn) (bloat x : ℝ)
    (h : p.name = "sum_cossq_s" ∨ p.name = "sum_cossq_sqrts" ∨ p.name = "sum_cossq_s_free") :
    findParameterization p.name .current ≠ 0 ∧ evalCurrProfile q p bloat x = .ok 0 := by
  unfold evalCurrProfile
  have e1 : findParameterization "sum_cossq_s" .current = 20 := by decide +kernel
  have e2 : findParameterization "sum_cossq_sqrts" .current = 21 := by decide +kernel
  have e3 : findParameterization "sum_cossq_s_free" .current = 22 := by decide +kernel
  rcases h with h | h | h <;> rw [h] <;> simp [e1, e2, e3, evalProfileFunction]

/-- every other allowed name reaches an evaluator: the result is never the default branch -/
theorem C34_allowed_is_evaluated (name : String) (k : Kind)
    (h : ∃ p ∈ allParams, p.name = name ∧ p.allowed k = true)
    (hc : name ≠ "sum_cossq_s" ∧ name ≠ "sum_cossq_sqrts" ∧ name ≠ "sum_cossq_s_free") :
    1 ≤ findParameterization name k ∧ findParameterization name k ≤ 19 := by
  obtain ⟨p, hp, hn, ha⟩ := h
  obtain ⟨i, hi, e⟩ := List.getElem_of_mem hp
  have hi' : allParams[i]? = some p := by rw [List.getElem?_eq_getElem hi, e]
  have := C34_known_name k i p hi' ha
  rw [hn] at this
  rw [this]
  subst hn
  have hlen : allParams.length = 23 := by decide
  have : i ≠ 0 ∧ i ≠ 20 ∧ i ≠ 21 ∧ i ≠ 22 := by
    refine ⟨?_, ?_, ?_, ?_⟩ <;> intro h0 <;> subst h0 <;> simp [allParams] at hi' <;> subst hi'
    · cases k <;> simp [Param.allowed] at ha
    · exact hc.1 rfl
    · exact hc.2.1 rfl
    · exact hc.2.2 rfl
  omega

end Verif.Profiles
