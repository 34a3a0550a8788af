import Verif.AxisGuess.Geom

/-!
# C44: the re-guess of the magnetic axis, search in one plane
-/
namespace Verif.AxisGuess
open Verif Finset

/-! ## the search in one plane -/
section search
variable {K : Type} [Field K] [LinearOrder K]

/-- the 61 x 61 grid over the bounding box of the boundary curve, or its 61 points with `z = 0` -/
def IsGridPoint (p : Plane K) (r z : K) : Prop :=
  (∃ i : Int, 0 ≤ i ∧ i ≤ 60 ∧ r = p.min_r + i * ((p.max_r - p.min_r) / 60)) ∧
    (if p.zeroZ then z = 0 else ∃ j : Int, 0 ≤ j ∧ j ≤ 60 ∧ z = p.min_z + j * ((p.max_z - p.min_z) / 60))

/-- the Jacobian at the poloidal point `l`, with the axis at `(r, z)`, times the wanted sign -/
def jac (p : Plane K) (r z : K) (l : Int) : K :=
  p.sign_of_jacobian * (p.tau0 l - p.d_r_d_theta_half l * z + p.d_z_d_theta_half l * r)

/-- `t` is the minimum of the signed Jacobian over the poloidal points -/
def IsMinJac (p : Plane K) (r z t : K) : Prop :=
  (∃ l, (0 ≤ l ∧ l < p.nThetaEven) ∧ jac p r z l = t) ∧ ∀ l, 0 ≤ l → l < p.nThetaEven → t ≤ jac p r z l

theorem minTau_isMin (p : Plane K) (hn : 1 ≤ p.nThetaEven) (r z : K) : IsMinJac p r z (p.minTau r z) := by
  obtain ⟨⟨l, h1, h2, h3⟩, h4⟩ := minElement_spec p.nThetaEven hn (p.tau r z)
  exact ⟨⟨l, ⟨h1, h2⟩, h3.symm⟩, h4⟩

theorem IsMinJac.eq {p : Plane K} (hn : 1 ≤ p.nThetaEven) {r z t : K} (h : IsMinJac p r z t) :
    t = p.minTau r z := by
  obtain ⟨⟨l, hl, e⟩, h2⟩ := h
  obtain ⟨⟨l', hl', e'⟩, h2'⟩ := minTau_isMin p hn r z
  exact le_antisymm (by rw [← e']; exact h2 _ hl'.1 hl'.2) (by rw [← e]; exact h2' _ hl.1 hl.2)

theorem mem_points (p : Plane K) (r z : K) : (r, z) ∈ p.points ↔ IsGridPoint p r z := by
  have e60 : ((kNumberOfGridPoints : Int) : K) - 1 = 60 := by
    have : ((61 : Int) : K) = 60 + 1 := by norm_num
    show ((61 : Int) : K) - 1 = 60
    rw [this]; ring
  unfold Plane.points IsGridPoint
  have er : ∀ i : Int, p.rGrid i = p.min_r + i * ((p.max_r - p.min_r) / 60) := by
    intro i; unfold Plane.rGrid Plane.delta_r; rw [e60]
  have ez : ∀ i : Int, p.zGrid i = p.min_z + i * ((p.max_z - p.min_z) / 60) := by
    intro i; unfold Plane.zGrid Plane.delta_z; rw [e60]
  have em : ∀ i : Int, i ∈ irange 0 kNumberOfGridPoints ↔ 0 ≤ i ∧ i ≤ 60 := by
    intro i; rw [mem_irange]; unfold kNumberOfGridPoints; omega
  by_cases hz : p.zeroZ = true
  · rw [if_pos hz, if_pos hz]
    simp only [List.mem_map, em, Prod.mk.injEq, er]
    constructor
    · rintro ⟨i, hi, e1, e2⟩; exact ⟨⟨i, hi.1, hi.2, e1.symm⟩, e2.symm⟩
    · rintro ⟨⟨i, h1, h2, e1⟩, e2⟩; exact ⟨i, ⟨h1, h2⟩, e1.symm, e2.symm⟩
  · rw [if_neg hz, if_neg hz]
    simp only [List.mem_flatMap, List.mem_map, em, Prod.mk.injEq, er, ez]
    constructor
    · rintro ⟨j, hj, i, hi, e1, e2⟩; exact ⟨⟨i, hi.1, hi.2, e1.symm⟩, ⟨j, hj.1, hj.2, e2.symm⟩⟩
    · rintro ⟨⟨i, h1, h2, e1⟩, ⟨j, h3, h4, e2⟩⟩; exact ⟨j, ⟨h3, h4⟩, i, ⟨h1, h2⟩, e1.symm, e2.symm⟩

/-- **C44** (search, the part that holds) If some grid point gives the Jacobian the wanted sign everywhere, and the
    grid points with the best minimum lie on one grid line, then the search returns a best point; in particular
    the returned position gives the Jacobian the wanted sign everywhere. On the planes where the search is
    restricted to `z = 0` the second hypothesis holds by itself (`C44_search_symmetry_plane`).
    Missing: without that hypothesis the claim is false, see `C44_tie_mixes_points`. -/
theorem C44_search_partial (p : Plane K) (hn : 1 ≤ p.nThetaEven) (r0 z0 t0 : K) (hg : IsGridPoint p r0 z0)
    (ht : IsMinJac p r0 z0 t0) (hpos : 0 < t0)
    (hline : (∀ r z r' z' t, IsGridPoint p r z → IsGridPoint p r' z' → IsMinJac p r z t → IsMinJac p r' z' t →
        (∀ r'' z'' t'', IsGridPoint p r'' z'' → IsMinJac p r'' z'' t'' → t'' ≤ t) → r = r') ∨
      (∀ r z r' z' t, IsGridPoint p r z → IsGridPoint p r' z' → IsMinJac p r z t → IsMinJac p r' z' t →
        (∀ r'' z'' t'', IsGridPoint p r'' z'' → IsMinJac p r'' z'' t'' → t'' ≤ t) → z = z')) :
    IsGridPoint p p.search.r p.search.z ∧
    (∃ t, IsMinJac p p.search.r p.search.z t ∧ ∀ r z t', IsGridPoint p r z → IsMinJac p r z t' → t' ≤ t) ∧
    ∀ l, 0 ≤ l → l < p.nThetaEven → 0 < jac p p.search.r p.search.z l := by
  have hinv := inv_search p
  have hub : ∀ r z t', IsGridPoint p r z → IsMinJac p r z t' → t' ≤ p.search.min_tau := by
    intro r z t' h1 h2
    rw [h2.eq hn]
    exact hinv.ub (r, z) ((mem_points p r z).2 h1)
  have h0 : t0 ≤ p.search.min_tau := hub r0 z0 t0 hg ht
  have key : IsGridPoint p p.search.r p.search.z ∧ IsMinJac p p.search.r p.search.z p.search.min_tau := by
    rcases hinv.pos with ⟨e, -⟩ | ⟨-, ⟨xr, xz⟩, hx, ⟨yr, yz⟩, hy, e1, e2, e3, e4⟩
    · rw [e] at h0; exact absurd h0 (not_le.2 hpos)
    · dsimp only at e1 e2 e3 e4
      have gx := (mem_points p xr xz).1 hx
      have gy := (mem_points p yr yz).1 hy
      have mx : IsMinJac p xr xz p.search.min_tau := by rw [← e1]; exact minTau_isMin p hn _ _
      have my : IsMinJac p yr yz p.search.min_tau := by rw [← e2]; exact minTau_isMin p hn _ _
      rw [e3, e4]
      rcases hline with hl | hl
      · rw [hl xr xz yr yz _ gx gy mx my hub]; exact ⟨gy, my⟩
      · rw [← hl xr xz yr yz _ gx gy mx my hub]; exact ⟨gx, mx⟩
  exact ⟨key.1, ⟨_, key.2, hub⟩, fun l h1 h2 => lt_of_lt_of_le (lt_of_lt_of_le hpos h0) (key.2.2 l h1 h2)⟩

/-- **C44** On a symmetry plane the search returns a best point whenever a grid point gives the Jacobian the wanted
    sign. -/
theorem C44_search_symmetry_plane (p : Plane K) (hn : 1 ≤ p.nThetaEven) (hz : p.zeroZ = true) (r0 z0 t0 : K)
    (hg : IsGridPoint p r0 z0) (ht : IsMinJac p r0 z0 t0) (hpos : 0 < t0) :
    IsGridPoint p p.search.r p.search.z ∧
    (∃ t, IsMinJac p p.search.r p.search.z t ∧ ∀ r z t', IsGridPoint p r z → IsMinJac p r z t' → t' ≤ t) ∧
    ∀ l, 0 ≤ l → l < p.nThetaEven → 0 < jac p p.search.r p.search.z l := by
  refine C44_search_partial p hn r0 z0 t0 hg ht hpos (Or.inr ?_)
  intro r z r' z' t h1 h2 _ _ _
  have e1 := h1.2
  have e2 := h2.2
  rw [if_pos hz] at e1 e2
  rw [e1, e2]

/-- **C44** If no grid point gives the wanted sign everywhere, R stays at the centre of the bounding box. -/
theorem C44_search_fails (p : Plane K) (hn : 1 ≤ p.nThetaEven)
    (hno : ∀ r z t, IsGridPoint p r z → IsMinJac p r z t → t ≤ 0) :
    p.search.r = (p.max_r + p.min_r) / 2 := by
  rcases (inv_search p).pos with ⟨-, e, -⟩ | ⟨h, ⟨xr, xz⟩, hx, -, -, e1, -⟩
  · exact e
  · have := hno xr xz _ ((mem_points p xr xz).1 hx) (minTau_isMin p hn _ _)
    dsimp only at e1
    rw [e1] at this
    exact absurd this (not_le.2 h)

end search

/-- a plane in which the points with `r + z = 0` are the best ones -/
def tiePlane : Plane ℚ where
  nThetaEven := 4
  sign_of_jacobian := 1
  zeroZ := false
  r_lcfs := fun l => if l = 0 then 60 else if l = 2 then 0 else 30
  z_lcfs := fun l => if l = 1 then 30 else if l = 3 then -30 else 0
  tau0 := fun _ => 1
  d_r_d_theta_half := fun l => if l = 0 then -1 else if l = 1 then 1 else 0
  d_z_d_theta_half := fun l => if l = 0 then 1 else if l = 1 then -1 else 0

/-- best point after `j` rows of `tiePlane` -/
def tieAfter (j : Int) : Best ℚ :=
  if j = 0 then { min_tau := 0, r := 30, z := 0 } else { min_tau := 1, r := 30, z := if j < 31 then -31 + j else 0 }

theorem tie_row : ∀ j : Fin 61, tiePlane.row (tiePlane.zGrid j) (tieAfter j) = tieAfter (j + 1) := by
  decide +kernel

theorem tie_search : tiePlane.search = { min_tau := 1, r := 30, z := 0 } := by
  have e0 : tiePlane.start = tieAfter 0 := by decide +kernel
  have := forRange_inv (lo := 0) (hi := 61) (by decide) (fun index_z b => tiePlane.row (tiePlane.zGrid index_z) b)
    tiePlane.start (fun (j : Int) (b : Best ℚ) => b = tieAfter j) e0 (by
      intro j b h0 h1 e
      subst e
      have := tie_row ⟨j.toNat, by omega⟩
      rw [show (((⟨j.toNat, by omega⟩ : Fin 61) : Nat) : Int) = j by simp [h0]] at this
      exact this)
  have hz : ¬ tiePlane.zeroZ = true := by decide
  have e : tiePlane.search = tieAfter 61 := by
    rw [← this]
    unfold Plane.search
    rw [if_neg hz]
    rfl
  rw [e]
  decide +kernel

/-- **C44** (negation) The tie rule replaces only `z` and keeps the `r` of another point: the grid contains points at
    which the Jacobian has the wanted sign everywhere (for example `(30, -30)`), the search returns `(30, 0)`, and
    there the Jacobian has the wrong sign. -/
theorem C44_tie_mixes_points :
    IsGridPoint tiePlane 30 (-30) ∧ (∀ l, 0 ≤ l → l < 4 → 0 < jac tiePlane 30 (-30) l) ∧
    tiePlane.search = { min_tau := 1, r := 30, z := 0 } ∧ jac tiePlane 30 0 1 < 0 := by
  refine ⟨?_, ?_, tie_search, by decide +kernel⟩
  · have e1 : tiePlane.min_r = 0 := by decide +kernel
    have e2 : tiePlane.max_r = 60 := by decide +kernel
    have e3 : tiePlane.min_z = -30 := by decide +kernel
    have e4 : tiePlane.max_z = 30 := by decide +kernel
    unfold IsGridPoint
    rw [e1, e2, e3, e4]
    exact ⟨⟨30, by decide, by decide, by norm_num⟩, ⟨0, by decide, by decide, by norm_num⟩⟩
  · intro l h0 h1
    have : l = 0 ∨ l = 1 ∨ l = 2 ∨ l = 3 := by omega
    rcases this with rfl | rfl | rfl | rfl <;> decide +kernel

/-- the search on a symmetry plane whose best point is `r = 2` -/
def symPlane : Plane ℚ where
  nThetaEven := 2
  sign_of_jacobian := 1
  zeroZ := true
  r_lcfs := fun l => if l = 0 then 4 else 0
  z_lcfs := fun _ => 0
  tau0 := fun l => if l = 0 then 4 else 0
  d_r_d_theta_half := fun _ => 0
  d_z_d_theta_half := fun l => if l = 0 then -1 else 1

example : symPlane.search.r = 2 ∧ symPlane.search.z = 0 := by decide +kernel

example : ∀ l, 0 ≤ l → l < symPlane.nThetaEven → 0 < jac symPlane symPlane.search.r symPlane.search.z l := by
  have e1 : symPlane.min_r = 0 := by decide +kernel
  have e2 : symPlane.max_r = 4 := by decide +kernel
  refine (C44_search_symmetry_plane symPlane (by decide) rfl 1 0 1 ?_ ?_ (by norm_num)).2.2
  · unfold IsGridPoint
    rw [e1, e2]
    exact ⟨⟨15, by decide, by decide, by norm_num⟩, rfl⟩
  · refine ⟨⟨1, by decide, by decide +kernel⟩, fun l h0 h1 => ?_⟩
    have h1 : l < 2 := h1
    have : l = 0 ∨ l = 1 := by omega
    rcases this with rfl | rfl <;> decide +kernel

/-- a plane on which no point has the wanted sign -/
example : ({ symPlane with sign_of_jacobian := -1, d_z_d_theta_half := fun _ => 0 } : Plane ℚ).search.r = 2 := by
  rw [C44_search_fails _ (by decide) (fun r z t _ ht => (ht.2 1 (by decide) (by decide)).trans (by
    simp [jac, symPlane]))]
  decide +kernel

/-- a plane off the symmetry planes: the best point is the centre of the box; the two hypotheses about ties hold
    because every best point has `r = 30` -/
def openPlane : Plane ℚ where
  nThetaEven := 4
  sign_of_jacobian := 1
  zeroZ := false
  r_lcfs := fun l => if l = 0 then 60 else if l = 2 then 0 else 30
  z_lcfs := fun l => if l = 1 then 30 else if l = 3 then -30 else 0
  tau0 := fun l => if l = 2 then 60 else 0
  d_r_d_theta_half := fun _ => 0
  d_z_d_theta_half := fun l => if l = 2 then -1 else 1

example : ∀ l, 0 ≤ l → l < openPlane.nThetaEven → 0 < jac openPlane openPlane.search.r openPlane.search.z l := by
  have e1 : openPlane.min_r = 0 := by decide +kernel
  have e2 : openPlane.max_r = 60 := by decide +kernel
  have e3 : openPlane.min_z = -30 := by decide +kernel
  have e4 : openPlane.max_z = 30 := by decide +kernel
  have j0 : ∀ r z, jac openPlane r z 0 = r := by intro r z; simp [jac, openPlane]
  have j1 : ∀ r z, jac openPlane r z 1 = r := by intro r z; simp [jac, openPlane]
  have j3 : ∀ r z, jac openPlane r z 3 = r := by intro r z; simp [jac, openPlane]
  have j2 : ∀ r z, jac openPlane r z 2 = 60 - r := by intro r z; simp [jac, openPlane]; ring
  have hm : ∀ r z, IsMinJac openPlane r z (min r (60 - r)) := by
    intro r z
    constructor
    · rcases le_total r (60 - r) with h | h
      · exact ⟨0, ⟨by decide, by decide⟩, by rw [j0, min_eq_left h]⟩
      · exact ⟨2, ⟨by decide, by decide⟩, by rw [j2, min_eq_right h]⟩
    · intro l h0 h1
      have h1 : l < 4 := h1
      have : l = 0 ∨ l = 1 ∨ l = 2 ∨ l = 3 := by omega
      rcases this with rfl | rfl | rfl | rfl
      · rw [j0]; exact min_le_left _ _
      · rw [j1]; exact min_le_left _ _
      · rw [j2]; exact min_le_right _ _
      · rw [j3]; exact min_le_left _ _
  have h30' : IsMinJac openPlane 30 0 30 := by
    have := hm 30 0
    rwa [show min (30 : ℚ) (60 - 30) = 30 by norm_num] at this
  have hg : IsGridPoint openPlane 30 0 := by
    unfold IsGridPoint
    rw [e1, e2, e3, e4]
    exact ⟨⟨30, by decide, by decide, by norm_num⟩, ⟨30, by decide, by decide, by norm_num⟩⟩
  have best : ∀ r z t, IsMinJac openPlane r z t →
      (∀ r'' z'' t'', IsGridPoint openPlane r'' z'' → IsMinJac openPlane r'' z'' t'' → t'' ≤ t) → r = 30 := by
    intro r z t ht hub
    have h30 := hub 30 0 30 hg h30'
    have a1 := ht.2 0 (by decide) (by decide)
    have a2 := ht.2 2 (by decide) (by decide)
    rw [j0] at a1
    rw [j2] at a2
    linarith
  refine (C44_search_partial openPlane (by decide) 30 0 30 hg
    h30' (by norm_num) (Or.inl ?_)).2.2
  intro r z r' z' t _ _ h1 h2 hub
  rw [best r z t h1 hub, best r' z' t h2 hub]

end Verif.AxisGuess
