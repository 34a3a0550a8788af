import Verif.Makegrid.Field

/-!
# C57: response tables, C58: the straight filament
-/
namespace Verif.Makegrid
open Verif Verif.Coils

variable {par : Params} {lib : Library}

/-- C57: the table of a circuit holds, at every grid point, the cylindrical components of the field of that circuit:
    per ampere-turn of its first coil if the table is normalised, with its own current otherwise. With the symmetry
    option this needs a symmetric Z range and circuits that are symmetric on their own. -/
theorem C57_table_partial {cfg : Config} (hl : Linear lib) (hv : Valid par) (hpop : populated cfg = true)
    (hf : ∀ c ∈ cfg.circuits, Finite c) (hw : par.normalize_by_currents = true → AllWound cfg)
    (hs : par.assume_stellarator_symmetry = true → par.z_grid_minimum = -par.z_grid_maximum ∧
      ∀ c ∈ cfg.circuits, Symmetric par.number_of_field_periods (circuitField lib c)) :
    ∃ rows, responseTable par lib cfg = .ok rows ∧ rows.length = cfg.circuits.length ∧
      ∀ i (hi : i < cfg.circuits.length) (hi' : i < rows.length) (ip iz ir : Int), OnGrid par ip iz ir →
        rows[i] (flat par ip iz ir) = some
          ((if par.normalize_by_currents = true then ((firstWind cfg.circuits[i] : ℝ)⁻¹) else (amps cfg.circuits[i] : ℝ)) •
            comps (circuitField lib cfg.circuits[i]) (gridR par ir) (gridPhi par ip) (gridZ par iz)) := by
  obtain ⟨n, g, hg⟩ : ∃ n g, makeCylindricalGrid par = .ok (n, g) := ⟨_, _, grid_ok.2 ⟨hv, rfl, rfl⟩⟩
  set cfg' : Config := { cfg with
      circuits := if par.normalize_by_currents = true then cfg.circuits.map migrated else cfg.circuits } with hcfg'
  have hlen : cfg'.circuits.length = cfg.circuits.length := by rw [hcfg']; dsimp only; split <;> simp
  have hf' : ∀ c ∈ cfg'.circuits, Finite c := by
    intro c hc
    rw [hcfg'] at hc
    dsimp only at hc
    split at hc
    · obtain ⟨d, -, rfl⟩ := List.mem_map.1 hc
      exact migrated_finite d
    · exact hf c hc
  have hpop' : populated cfg' = true := by
    by_cases hn : par.normalize_by_currents = true
    · have : cfg' = { cfg with circuits := cfg.circuits.map migrated } := by rw [hcfg', if_pos hn]
      rw [this]; exact populated_migrated hpop
    · have : cfg' = cfg := by rw [hcfg', if_neg hn]
      rw [this]; exact hpop
  let F : Nat → V → V := fun i p => if hi : i < cfg'.circuits.length then
    (rowCurrent par cfg'.circuits[i] : ℝ) • circuitField lib cfg'.circuits[i] p else 0
  have hrows : responseTable par lib cfg = .ok ((List.range cfg'.circuits.length).map fun i =>
      toCylindrical par (fun j => some (F i (g j))) n
        (par.number_of_phi_grid_points * par.number_of_z_grid_points * par.number_of_r_grid_points)) := by
    unfold responseTable
    rw [hg]
    simp only [Outcome.bind_ok]
    rw [effective_ok hw]
    simp only [Outcome.bind_ok]
    unfold getCircuitCurrents
    rw [if_pos hpop']
    simp only [Outcome.bind_ok]
    refine mapM_range fun i hi => ?_
    rw [row_ok hl hf' hpop' hi]
    congr 2
    funext j
    show _ = some (F i (g j))
    simp only [F]
    rw [dif_pos hi]
  refine ⟨_, hrows, by simp [hlen], ?_⟩
  intro i hi hi' ip iz ir hon
  have hi2 : i < cfg'.circuits.length := by omega
  -- the field of the row
  have hF : F i = fun p => (if par.normalize_by_currents = true then ((firstWind cfg.circuits[i] : ℝ)⁻¹)
      else (amps cfg.circuits[i] : ℝ)) • circuitField lib cfg.circuits[i] p := by
    funext p
    simp only [F, hi2, dite_true]
    unfold rowCurrent
    by_cases hn : par.normalize_by_currents = true
    · have : cfg'.circuits[i] = migrated cfg.circuits[i] := by simp only [hcfg', hn, if_true, List.getElem_map]
      rw [this, if_pos hn, if_pos hn, migrated_field]
      simp
    · have : cfg'.circuits[i] = cfg.circuits[i] := by simp only [hcfg', hn, if_false]; rfl
      rw [this, if_neg hn, if_neg hn]
  have hcomps : ∀ (a : ℝ) (G : V → V) R φ Z, comps (fun p => a • G p) R φ Z = a • comps G R φ Z := by
    intro a G R φ Z
    unfold comps cyl
    refine Prod.ext ?_ (Prod.ext ?_ ?_) <;> simp <;> ring
  rw [List.getElem_map, List.getElem_range, row_at hg (F i) ?_ hon, hF, hcomps]
  intro hss
  obtain ⟨hz, hsym⟩ := hs hss
  refine ⟨hz, ?_⟩
  have hc := hsym _ (List.getElem_mem hi)
  rw [hF]
  constructor
  · intro R φ Z
    rw [hcomps, hcomps, hc.periodic]
  · intro R φ Z
    rw [hcomps, hcomps, hc.mirror]
    generalize (if par.normalize_by_currents = true then ((firstWind cfg.circuits[i] : ℝ)⁻¹)
      else (amps cfg.circuits[i] : ℝ)) = a
    refine Prod.ext ?_ (Prod.ext rfl rfl)
    simp

/-- C57: the tables add up to the field of the configuration: weighted with the ampere-turns (current times windings of
    the first coil) if normalised, as they are otherwise. The field routine gives the same sum. -/
theorem C57_superposition_partial {cfg : Config} (hl : Linear lib) (hv : Valid par) (hpop : populated cfg = true)
    (hf : ∀ c ∈ cfg.circuits, Finite c) (hw : par.normalize_by_currents = true → AllWound cfg)
    (hs : par.assume_stellarator_symmetry = true → par.z_grid_minimum = -par.z_grid_maximum ∧
      ∀ c ∈ cfg.circuits, Symmetric par.number_of_field_periods (circuitField lib c)) :
    (∀ p, fieldAt lib cfg p = some (totalField lib cfg p)) ∧
    ∃ rows : List (Int → V), (responseTable par lib cfg).IsOk ∧
      (∀ table, responseTable par lib cfg = .ok table → ∀ i (h : i < rows.length) (h' : i < table.length) ip iz ir,
        OnGrid par ip iz ir → table[i] (flat par ip iz ir) = some (rows[i] (flat par ip iz ir))) ∧
      rows.length = cfg.circuits.length ∧
      ∀ ip iz ir, OnGrid par ip iz ir →
        (List.zipWith (fun (c : Circuit) (row : Int → V) =>
            (if par.normalize_by_currents = true then (amps c * firstWind c : ℝ) else 1) • row (flat par ip iz ir))
          cfg.circuits rows).sum =
        comps (totalField lib cfg) (gridR par ir) (gridPhi par ip) (gridZ par iz) := by
  refine ⟨fieldAt_fin hl hf, ?_⟩
  obtain ⟨table, ht, hlen, hrow⟩ := C57_table_partial hl hv hpop hf hw hs
  refine ⟨table.map fun t i => (t i).getD 0, ⟨_, ht⟩, ?_, by simp [hlen], ?_⟩
  · intro table' ht' i h h' ip iz ir hon
    rw [ht] at ht'
    injection ht' with ht'
    subst ht'
    rw [List.getElem_map, hrow i (by omega) h' ip iz ir hon]
    rfl
  · intro ip iz ir hon
    have hsum : ∀ (cs : List Circuit) R φ Z,
        comps (fun p => (cs.map fun c => (amps c : ℝ) • circuitField lib c p).sum) R φ Z =
          (cs.map fun c => (amps c : ℝ) • comps (circuitField lib c) R φ Z).sum := by
      intro cs R φ Z
      induction cs with
      | nil => simp [comps, cyl]
      | cons c cs ih =>
        simp only [List.map_cons, List.sum_cons]
        rw [← ih]
        unfold comps cyl
        refine Prod.ext ?_ (Prod.ext ?_ ?_) <;> simp <;> ring
    have e := hsum cfg.circuits (gridR par ir) (gridPhi par ip) (gridZ par iz)
    refine Eq.trans ?_ e.symm
    congr 1
    refine List.ext_getElem (by simp [hlen]) ?_
    intro i h1 h2
    have hi : i < cfg.circuits.length := by simpa using h2
    rw [List.getElem_zipWith, List.getElem_map, List.getElem_map, hrow i hi (by omega) ip iz ir hon]
    simp only [Option.getD_some]
    rw [smul_smul]
    congr 1
    by_cases hn : par.normalize_by_currents = true
    · rw [if_pos hn, if_pos hn]
      have := firstWind_ne (hw hn _ (List.getElem_mem hi))
      have : (firstWind cfg.circuits[i] : ℝ) ≠ 0 := by exact_mod_cast this
      field_simp
    · rw [if_neg hn, if_neg hn, one_mul]

/-- C57: the table is rejected exactly if the grid parameters are invalid; the Z range need not be symmetric -/
theorem C57_grid_accepted : (makeCylindricalGrid par).IsOk ↔ Valid par := by
  constructor
  · rintro ⟨⟨n, g⟩, h⟩
    exact (grid_ok.1 h).1
  · intro h
    exact ⟨_, grid_ok.2 ⟨h, rfl, rfl⟩⟩

/-- C57: entries of the mirrored half are copied from entries that the first loop has written -/
theorem C57_mirror_reads_computed (hv : Valid par) (hs : par.assume_stellarator_symmetry = true) {i : Int}
    (h0 : evalPlanes par * par.number_of_z_grid_points * par.number_of_r_grid_points ≤ i)
    (h1 : i < par.number_of_phi_grid_points * par.number_of_z_grid_points * par.number_of_r_grid_points) :
    0 ≤ reversed par i ∧
      reversed par i < evalPlanes par * par.number_of_z_grid_points * par.number_of_r_grid_points := by
  have hnr := hv.nr
  have hnz := hv.nz
  have hnp := hv.nphi
  have hn0 : 0 ≤ evalPlanes par * par.number_of_z_grid_points * par.number_of_r_grid_points := by
    refine mul_nonneg (mul_nonneg ?_ (by omega)) (by omega)
    unfold evalPlanes; split <;> omega
  obtain ⟨a, b, c, hab, rfl⟩ := flat_surj hv (by omega) h1
  have hpa : evalPlanes par ≤ a := by
    by_contra hc
    have := (flat_range hv hab (evalPlanes par)).2.2 (by omega)
    omega
  obtain ⟨e1, e2, e3⟩ := reversed_at hv hs hab hpa
  rw [e1]
  exact ⟨(flat_range hv e2 0).1, (flat_range hv e2 _).2.2 e3⟩

/-! ## a concrete case and the failure for an unsymmetric Z range -/

/-- the field `(-zx, -zy, z²)` of every carrier (divergence free, axisymmetric, stellarator symmetric) -/
noncomputable def demoLib : Library := fun _ i p => (i : ℝ) • (-(p.2.2 * p.1), -(p.2.2 * p.2.1), p.2.2 ^ 2)

theorem demoLib_linear : Linear demoLib := by
  intro t i p
  simp [demoLib]

def demoCircuit : Circuit where
  current := some (.fin 5)
  coils := [⟨some (.fin 2), [.circular [] (.fin 1) (.fin 0, .fin 0, .fin 0) (.fin 0, .fin 0, .fin 1)]⟩]

def demoConfig : Config := { num_field_periods := none, circuits := [demoCircuit] }

theorem demo_field (p : V) : circuitField demoLib demoCircuit p =
    (-(2 * (p.2.2 * p.1)), -(2 * (p.2.2 * p.2.1)), 2 * p.2.2 ^ 2) := by
  simp [circuitField, demoCircuit, demoLib, wind]

theorem demo_comps (R φ Z : ℝ) : comps (circuitField demoLib demoCircuit) R φ Z = (-(2 * (Z * R)), 0, 2 * Z ^ 2) := by
  unfold comps cyl point
  rw [demo_field]
  have := Real.sin_sq_add_cos_sq φ
  refine Prod.ext ?_ (Prod.ext ?_ rfl)
  · dsimp only; linear_combination (-2 * Z * R) * this
  · dsimp only; ring

theorem demo_symmetric (nfp : Int) : Symmetric nfp (circuitField demoLib demoCircuit) := by
  constructor
  · intro R φ Z; rw [demo_comps, demo_comps]
  · intro R φ Z
    rw [demo_comps, demo_comps]
    refine Prod.ext ?_ (Prod.ext ?_ ?_) <;> simp

/-- a grid with Z from `z0` to 1 -/
def demoPar (z0 : ℝ) (normalize : Bool) : Params where
  normalize_by_currents := normalize
  assume_stellarator_symmetry := true
  number_of_field_periods := 1
  r_grid_minimum := 1
  r_grid_maximum := 2
  number_of_r_grid_points := 2
  z_grid_minimum := z0
  z_grid_maximum := 1
  number_of_z_grid_points := 2
  number_of_phi_grid_points := 4

theorem demoPar_valid {z0 : ℝ} (h : z0 < 1) (b : Bool) : Valid (demoPar z0 b) where
  nfp := by simp [demoPar]
  r := by simp [demoPar]
  nr := by simp [demoPar]
  z := h
  nz := by simp [demoPar]
  nphi := by simp [demoPar]
  even := fun _ => ⟨2, rfl⟩

theorem demo_wound : AllWound demoConfig := by
  intro c hc
  rw [demoConfig, List.mem_singleton] at hc
  subst hc
  refine ⟨⟨5, rfl⟩, ⟨_, _, rfl, 2, rfl, by norm_num⟩, ?_⟩
  intro k hk
  simp only [demoCircuit, List.mem_singleton] at hk
  subst hk
  exact ⟨2, rfl⟩

/-- the hypotheses of `C57_table_partial` hold for Z from -1 to 1; the normalised entry at the last plane, upper
    edge, is the field per ampere-turn -/
example : ∃ row, responseTable (demoPar (-1) true) demoLib demoConfig = .ok [row] ∧
    row (flat (demoPar (-1) true) 3 1 0) = some (-1, 0, 1) := by
  obtain ⟨rows, h1, h2, h3⟩ := C57_table_partial (par := demoPar (-1) true) (cfg := demoConfig) demoLib_linear
    (demoPar_valid (by norm_num) true) (by decide) (fun c hc => wound_finite (demo_wound c hc)) (fun _ => demo_wound)
    (fun _ => ⟨rfl, fun c hc => by
      rw [demoConfig, List.mem_singleton] at hc; subst hc; exact demo_symmetric _⟩)
  match rows, h2 with
  | [row], _ =>
    refine ⟨row, h1, ?_⟩
    have := h3 0 (by decide) (by simp) 3 1 0 ⟨by decide, by decide, by decide, by decide, by decide, by decide⟩
    simp only [List.getElem_cons_zero] at this
    rw [this]
    have e : demoConfig.circuits[0] = demoCircuit := rfl
    rw [e, demo_comps]
    simp [demoPar, firstWind, demoCircuit, wind, gridR, gridZ]
    norm_num

/-- C57 fails without a symmetric Z range: for Z from 0 to 1 the field is accepted and symmetric, but the entries of
    the mirrored half belong to other heights. At the last plane and `Z = 0` the field vanishes, the table says 10. -/
theorem C57_unsymmetric_range :
    ∃ rows, responseTable (demoPar 0 false) demoLib demoConfig = .ok rows ∧
      ∃ row ∈ rows, row (flat (demoPar 0 false) 3 0 0) = some (10, 0, 10) ∧
      (gridZ (demoPar 0 false) 0 = 0 ∧
        totalField demoLib demoConfig (point (gridR (demoPar 0 false) 0) (gridPhi (demoPar 0 false) 3) 0) = 0) := by
  have hv := demoPar_valid (z0 := 0) (by norm_num) false
  obtain ⟨n, g, hg⟩ : ∃ n g, makeCylindricalGrid (demoPar 0 false) = .ok (n, g) := ⟨_, _, grid_ok.2 ⟨hv, rfl, rfl⟩⟩
  have hf : ∀ c ∈ demoConfig.circuits, Finite c := fun c hc => wound_finite (demo_wound c hc)
  have hn : n = 12 := (grid_ok.1 hg).2.1.trans (by decide)
  have hrow := row_ok (par := demoPar 0 false) (g := g) (n := n) demoLib_linear hf (by decide) (i := 0) (by decide)
  set F : V → V := fun p => (rowCurrent (demoPar 0 false) demoConfig.circuits[0] : ℝ) •
    circuitField demoLib demoConfig.circuits[0] p with hF
  have hT : responseTable (demoPar 0 false) demoLib demoConfig = .ok [toCylindrical (demoPar 0 false)
      (fun j => some (F (g j))) n 16] := by
    unfold responseTable
    rw [hg]
    simp only [Outcome.bind_ok]
    have he : effective (demoPar 0 false) demoConfig = .ok demoConfig := rfl
    rw [he]
    simp only [Outcome.bind_ok]
    have ho : getCircuitCurrents demoConfig = .ok (demoConfig.circuits.map Circuit.cur) := rfl
    rw [ho]
    simp only [Outcome.bind_ok]
    have : (List.range demoConfig.circuits.length) = [0] := rfl
    rw [this, List.mapM_cons, hrow]
    rfl
  refine ⟨_, hT, _, List.mem_singleton_self _, ?_, by simp [gridZ, demoPar], ?_⟩
  · have hrev : reversed (demoPar 0 false) (flat (demoPar 0 false) 3 0 0) = flat (demoPar 0 false) 1 1 0 := by decide
    have hon : OnGrid (demoPar 0 false) 1 1 0 := ⟨by decide, by decide, by decide, by decide, by decide, by decide⟩
    unfold toCylindrical
    rw [if_pos (by rw [hn]; decide)]
    have hr : ∀ i, n ≤ i → i < 16 → reversed (demoPar 0 false) i < n := by
      intro i h1 h2
      rw [hn]
      exact (C57_mirror_reads_computed hv rfl (i := i) (by rw [hn] at h1; exact h1) h2).2
    rw [(mirror_at (by rw [hn]; decide) _ hr).2 _ (by rw [hn]; decide) (by decide), hrev]
    rw [convert_at _ _ _ _ _ _ (by decide) (by rw [hn]; decide), (flat_parts hv hon).1]
    simp only [Option.map_some, Option.some.injEq]
    rw [toCyl_eq hv, grid_at hv hg hon (by decide)]
    have hc : cyl (gridPhi (demoPar 0 false) 1) (F (point (gridR (demoPar 0 false) 0) (gridPhi (demoPar 0 false) 1)
        (gridZ (demoPar 0 false) 1))) = (5 : ℝ) • comps (circuitField demoLib demoCircuit) (gridR (demoPar 0 false) 0)
        (gridPhi (demoPar 0 false) 1) (gridZ (demoPar 0 false) 1) := by
      have h5 : rowCurrent (demoPar 0 false) demoConfig.circuits[0] = 5 := rfl
      rw [hF]
      dsimp only
      rw [h5]
      unfold comps cyl
      refine Prod.ext ?_ (Prod.ext ?_ ?_) <;> simp <;> first | (left; rfl) | skip
      all_goals (show _ = _; simp only [demoConfig, List.getElem_cons_zero]; try ring)
    rw [hc, demo_comps]
    simp [mirrored, gridR, gridZ, demoPar]
    norm_num
  · simp [totalField, demoConfig, demo_field, point]

/-! ## C58 -/

/-- C58: away from the filament the routine gives the field of an infinite straight wire through the origin point:
    `μ0 I/(2π) · |d| / |d×ρ|² · d×ρ` with `ρ` from the wire to the evaluation point, for any length of `d` -/
theorem C58_straight (mu0 : ℝ) (o d : V) (i : ℝ) (p : V) (h : cross d (p - o) ≠ 0) :
    straightField mu0 o d i p = .ok ((mu0 * i / (2 * Real.pi) *
      (Real.sqrt (d.1 ^ 2 + d.2.1 ^ 2 + d.2.2 ^ 2) /
        ((cross d (p - o)).1 ^ 2 + (cross d (p - o)).2.1 ^ 2 + (cross d (p - o)).2.2 ^ 2))) • cross d (p - o)) := by
  obtain ⟨dx, dy, dz⟩ := d
  obtain ⟨ox, oy, oz⟩ := o
  obtain ⟨px, py, pz⟩ := p
  by_cases hi : i = 0
  · subst hi
    unfold straightField
    rw [if_pos rfl]
    simp
  set L := Real.sqrt (dx ^ 2 + dy ^ 2 + dz ^ 2) with hL
  have hL2 : L ^ 2 = dx ^ 2 + dy ^ 2 + dz ^ 2 := by rw [hL]; exact Real.sq_sqrt (by positivity)
  set cx := (cross (dx, dy, dz) ((px, py, pz) - (ox, oy, oz))).1 with hcx
  set cy := (cross (dx, dy, dz) ((px, py, pz) - (ox, oy, oz))).2.1 with hcy
  set cz := (cross (dx, dy, dz) ((px, py, pz) - (ox, oy, oz))).2.2 with hcz
  have ecx : cx = dy * (pz - oz) - dz * (py - oy) := rfl
  have ecy : cy = dz * (px - ox) - dx * (pz - oz) := rfl
  have ecz : cz = dx * (py - oy) - dy * (px - ox) := rfl
  have hc : 0 < cx ^ 2 + cy ^ 2 + cz ^ 2 := by
    rcases eq_or_lt_of_le (by positivity : 0 ≤ cx ^ 2 + cy ^ 2 + cz ^ 2) with e | e
    · exfalso
      apply h
      have h1 : cx = 0 := by nlinarith [sq_nonneg cx, sq_nonneg cy, sq_nonneg cz]
      have h2 : cy = 0 := by nlinarith [sq_nonneg cx, sq_nonneg cy, sq_nonneg cz]
      have h3 : cz = 0 := by nlinarith [sq_nonneg cx, sq_nonneg cy, sq_nonneg cz]
      exact Prod.ext h1 (Prod.ext h2 h3)
    · exact e
  have hd : 0 < dx ^ 2 + dy ^ 2 + dz ^ 2 := by
    rcases eq_or_lt_of_le (by positivity : 0 ≤ dx ^ 2 + dy ^ 2 + dz ^ 2) with e | e
    · exfalso
      have h1 : dx = 0 := by nlinarith [sq_nonneg dx, sq_nonneg dy, sq_nonneg dz]
      have h2 : dy = 0 := by nlinarith [sq_nonneg dx, sq_nonneg dy, sq_nonneg dz]
      have h3 : dz = 0 := by nlinarith [sq_nonneg dx, sq_nonneg dy, sq_nonneg dz]
      rw [ecx, ecy, ecz, h1, h2, h3] at hc
      simp at hc
    · exact e
  have hLpos : 0 < L := Real.sqrt_pos.2 hd
  have hLne := hLpos.ne'
  set q := (ox - px) * (dx / L) + (oy - py) * (dy / L) + (oz - pz) * (dz / L) with hq
  set vx := (ox - px) - dx / L * q with hvx
  set vy := (oy - py) - dy / L * q with hvy
  set vz := (oz - pz) - dz / L * q with hvz
  have hqL : q * L = (ox - px) * dx + (oy - py) * dy + (oz - pz) * dz := by rw [hq]; field_simp
  have hv2 : vx ^ 2 + vy ^ 2 + vz ^ 2 = (cx ^ 2 + cy ^ 2 + cz ^ 2) / L ^ 2 := by
    rw [eq_div_iff (by positivity)]
    have e1 : vx * L ^ 2 = (ox - px) * L ^ 2 - dx * (q * L) := by rw [hvx]; field_simp
    have e2 : vy * L ^ 2 = (oy - py) * L ^ 2 - dy * (q * L) := by rw [hvy]; field_simp
    have e3 : vz * L ^ 2 = (oz - pz) * L ^ 2 - dz * (q * L) := by rw [hvz]; field_simp
    have : ((vx ^ 2 + vy ^ 2 + vz ^ 2) * L ^ 2) * L ^ 2 = (cx ^ 2 + cy ^ 2 + cz ^ 2) * L ^ 2 := by
      have : ((vx ^ 2 + vy ^ 2 + vz ^ 2) * L ^ 2) * L ^ 2 = (vx * L ^ 2) ^ 2 + (vy * L ^ 2) ^ 2 + (vz * L ^ 2) ^ 2 := by ring
      rw [this, e1, e2, e3, hqL, hL2, ecx, ecy, ecz]
      ring
    exact mul_right_cancel₀ (by positivity : L ^ 2 ≠ 0) this
  set r := Real.sqrt (vx ^ 2 + vy ^ 2 + vz ^ 2) with hr
  have hr2 : r ^ 2 = (cx ^ 2 + cy ^ 2 + cz ^ 2) / L ^ 2 := by rw [hr, Real.sq_sqrt (by positivity), hv2]
  have hrpos : 0 < r := Real.sqrt_pos.2 (by rw [hv2]; positivity)
  have hrne := hrpos.ne'
  have key : ∀ a : ℝ, a / L / r * (mu0 * i / (2 * Real.pi) / r) =
      mu0 * i / (2 * Real.pi) * (L / (cx ^ 2 + cy ^ 2 + cz ^ 2)) * a := by
    intro a
    have : a / L / r * (mu0 * i / (2 * Real.pi) / r) = (mu0 * i / (2 * Real.pi)) * a / (L * r ^ 2) := by field_simp
    rw [this, hr2]
    have hc' := hc.ne'
    field_simp
  unfold straightField hypot
  rw [if_neg hi]
  dsimp only
  rw [if_neg (not_not.2 hLpos), if_neg (not_not.2 hrpos)]
  refine congrArg Outcome.ok ?_
  have m1 : vy / r * (dz / L) - vz / r * (dy / L) = cx / L / r := by
    rw [hvy, hvz, ecx]; field_simp; ring
  have m2 : vz / r * (dx / L) - vx / r * (dz / L) = cy / L / r := by
    rw [hvx, hvz, ecy]; field_simp; ring
  have m3 : vx / r * (dy / L) - vy / r * (dx / L) = cz / L / r := by
    rw [hvx, hvy, ecz]; field_simp; ring
  refine Prod.ext ?_ (Prod.ext ?_ ?_)
  · show (vy / r * (dz / L) - vz / r * (dy / L)) * (mu0 * i / (2 * Real.pi) / r) = _
    rw [m1, key]; rfl
  · show (vz / r * (dx / L) - vx / r * (dz / L)) * (mu0 * i / (2 * Real.pi) / r) = _
    rw [m2, key]; rfl
  · show (vx / r * (dy / L) - vy / r * (dx / L)) * (mu0 * i / (2 * Real.pi) / r) = _
    rw [m3, key]; rfl

/-- C58: on the wire, or for a zero direction, the process is terminated (unless there is no current) -/
theorem C58_on_wire (mu0 : ℝ) (o d : V) (i : ℝ) (p : V) (h : cross d (p - o) = 0) (hi : i ≠ 0) :
    ∃ m, straightField mu0 o d i p = .abort m := by
  obtain ⟨dx, dy, dz⟩ := d
  obtain ⟨ox, oy, oz⟩ := o
  obtain ⟨px, py, pz⟩ := p
  have ecx : dy * (pz - oz) - dz * (py - oy) = 0 := congrArg Prod.fst h
  have ecy : dz * (px - ox) - dx * (pz - oz) = 0 := congrArg (fun v : V => v.2.1) h
  have ecz : dx * (py - oy) - dy * (px - ox) = 0 := congrArg (fun v : V => v.2.2) h
  unfold straightField hypot
  rw [if_neg hi]
  dsimp only
  set L := Real.sqrt (dx ^ 2 + dy ^ 2 + dz ^ 2) with hL
  by_cases hLp : 0 < L
  · rw [if_neg (not_not.2 hLp)]
    have hL2 : L ^ 2 = dx ^ 2 + dy ^ 2 + dz ^ 2 := by rw [hL]; exact Real.sq_sqrt (by positivity)
    have hne := hLp.ne'
    set q := (ox - px) * (dx / L) + (oy - py) * (dy / L) + (oz - pz) * (dz / L) with hq
    have hqL : q * L = (ox - px) * dx + (oy - py) * dy + (oz - pz) * dz := by rw [hq]; field_simp
    have e1 : ox - px - dx / L * q = 0 := by
      have : (ox - px - dx / L * q) * L ^ 2 = (ox - px) * L ^ 2 - dx * (q * L) := by field_simp
      have h0 : (ox - px - dx / L * q) * L ^ 2 = 0 := by
        rw [this, hqL, hL2]; linear_combination dy * ecz - dz * ecy
      exact (mul_eq_zero.1 h0).resolve_right (by positivity)
    have e2 : oy - py - dy / L * q = 0 := by
      have : (oy - py - dy / L * q) * L ^ 2 = (oy - py) * L ^ 2 - dy * (q * L) := by field_simp
      have h0 : (oy - py - dy / L * q) * L ^ 2 = 0 := by
        rw [this, hqL, hL2]; linear_combination dz * ecx - dx * ecz
      exact (mul_eq_zero.1 h0).resolve_right (by positivity)
    have e3 : oz - pz - dz / L * q = 0 := by
      have : (oz - pz - dz / L * q) * L ^ 2 = (oz - pz) * L ^ 2 - dz * (q * L) := by field_simp
      have h0 : (oz - pz - dz / L * q) * L ^ 2 = 0 := by
        rw [this, hqL, hL2]; linear_combination dx * ecy - dy * ecx
      exact (mul_eq_zero.1 h0).resolve_right (by positivity)
    rw [e1, e2, e3, if_pos (by simp)]
    exact ⟨_, rfl⟩
  · rw [if_pos hLp]
    exact ⟨_, rfl⟩

/-- C58: the field is proportional to the current, so straight filaments meet the assumption `Linear` -/
theorem C58_linear (mu0 : ℝ) (o d p : V) (h : cross d (p - o) ≠ 0) :
    ∃ b, ∀ i, straightField mu0 o d i p = .ok (i • b) := by
  refine ⟨(mu0 / (2 * Real.pi) * (Real.sqrt (d.1 ^ 2 + d.2.1 ^ 2 + d.2.2 ^ 2) /
        ((cross d (p - o)).1 ^ 2 + (cross d (p - o)).2.1 ^ 2 + (cross d (p - o)).2.2 ^ 2))) • cross d (p - o), fun i => ?_⟩
  rw [C58_straight mu0 o d i p h, smul_smul]
  congr 2
  ring

/-- a wire along z with current 1, at distance 2 on the x axis: the field points along +y with size `μ0 / 4π`,
    whatever the length of the direction vector -/
example (mu0 : ℝ) : straightField mu0 (0, 0, 0) (0, 0, 7) 1 (2, 0, 5) = .ok (0, mu0 / (4 * Real.pi), 0) := by
  rw [C58_straight]
  · have : Real.sqrt ((0 : ℝ) ^ 2 + 0 ^ 2 + 7 ^ 2) = 7 := by
      rw [show (0 : ℝ) ^ 2 + 0 ^ 2 + 7 ^ 2 = 7 ^ 2 by norm_num]
      exact Real.sqrt_sq (by norm_num)
    rw [this]
    have hp := Real.pi_ne_zero
    refine congrArg Outcome.ok (Prod.ext ?_ (Prod.ext ?_ ?_)) <;> simp [cross]
    field_simp
    norm_num
  · intro h
    have := congrArg (fun v : V => v.2.1) h
    simp [cross] at this

end Verif.Makegrid
