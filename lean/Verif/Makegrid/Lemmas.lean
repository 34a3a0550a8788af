import Verif.Makegrid.Spec
import Verif.Common.Fam
import Verif.Common.FlatSum
import Verif.Common.Lawful
import Verif.Coils.Props
import Mathlib.Algebra.BigOperators.Group.List.Lemmas

namespace Verif.Makegrid
open Verif Verif.Coils

/-! ## loops -/

/-- three nested loops that write each index once -/
theorem nest3 {α : Type} {P Z R : Int} (ix : Int → Int → Int → Int) (val : Int → Int → Int → α)
    (inj : ∀ a b c a' b' c', 0 ≤ a → a < P → 0 ≤ b → b < Z → 0 ≤ c → c < R → 0 ≤ a' → a' < P → 0 ≤ b' → b' < Z →
      0 ≤ c' → c' < R → ix a b c = ix a' b' c' → a = a' ∧ b = b' ∧ c = c')
    (t0 : Int → α) {ip iz ir : Int} (h1 : 0 ≤ ip) (h2 : ip < P) (h3 : 0 ≤ iz) (h4 : iz < Z) (h5 : 0 ≤ ir)
    (h6 : ir < R) :
    forRange 0 P (fun a t => forRange 0 Z (fun b t => forRange 0 R (fun c t => upd t (ix a b c) (val a b c)) t) t) t0
      (ix ip iz ir) = val ip iz ir := by
  set i := ix ip iz ir with hi
  have e1 : ∀ a b (t : Int → α), forRange 0 R (fun c t => upd t (ix a b c) (val a b c)) t i =
      forRange 0 R (fun c x => if i = ix a b c then val a b c else x) (t i) := fun a b t =>
    forRange_map _ (fun c x => if i = ix a b c then val a b c else x) (fun s : Int → α => s i)
      (fun j s => by simp [upd]) t
  have e2 : ∀ a (t : Int → α), forRange 0 Z (fun b t => forRange 0 R (fun c t => upd t (ix a b c) (val a b c)) t) t i =
      forRange 0 Z (fun b x => forRange 0 R (fun c x => if i = ix a b c then val a b c else x) x) (t i) := fun a t =>
    forRange_map _ (fun b x => forRange 0 R (fun c x => if i = ix a b c then val a b c else x) x)
      (fun s : Int → α => s i) (fun j s => e1 a j s) t
  have e3 := forRange_map (lo := 0) (hi := P)
    (fun a (t : Int → α) => forRange 0 Z (fun b t => forRange 0 R (fun c t => upd t (ix a b c) (val a b c)) t) t)
    (fun a x => forRange 0 Z (fun b x => forRange 0 R (fun c x => if i = ix a b c then val a b c else x) x) x)
    (fun s : Int → α => s i) (fun j s => e2 j s) t0
  refine e3.trans ?_
  have f1 : ∀ a b x, 0 ≤ a → a < P → 0 ≤ b → b < Z → (a, b) ≠ (ip, iz) →
      forRange 0 R (fun c x => if i = ix a b c then val a b c else x) x = x := by
    intro a b x k1 k2 k3 k4 hne
    refine forRange_none _ (fun c x k5 k6 => ?_) x
    rw [if_neg]
    intro e
    have := inj ip iz ir a b c h1 h2 h3 h4 h5 h6 k1 k2 k3 k4 k5 k6 e
    exact hne (by rw [this.1, this.2.1])
  rw [forRange_only h1 h2]
  · rw [forRange_only h3 h4]
    · rw [forRange_only h5 h6]
      · rw [if_pos rfl]
      · intro c x k1 k2 hne
        rw [if_neg]
        intro e
        have := inj ip iz ir ip iz c h1 h2 h3 h4 h5 h6 h1 h2 h3 h4 k1 k2 e
        exact hne this.2.2.symm
    · intro b x k1 k2 hne
      exact f1 ip b x h1 h2 k1 k2 fun e => hne (by injection e)
  · intro a x k1 k2 hne
    refine forRange_none _ (fun b x k3 k4 => ?_) x
    exact f1 a b x k1 k2 k3 k4 fun e => hne (by injection e)

variable {par : Params}

theorem linear_eq (ip iz ir : Int) : linear par ip iz ir = flat par ip iz ir := by
  unfold linear flat; ring

/-! ## validity -/

/-- conditions under which the grid is accepted -/
structure Valid (par : Params) : Prop where
  nfp : 0 < par.number_of_field_periods
  r : par.r_grid_minimum < par.r_grid_maximum
  nr : 2 ≤ par.number_of_r_grid_points
  z : par.z_grid_minimum < par.z_grid_maximum
  nz : 2 ≤ par.number_of_z_grid_points
  nphi : 1 ≤ par.number_of_phi_grid_points
  even : par.assume_stellarator_symmetry = true → ∃ h, par.number_of_phi_grid_points = 2 * h

/-- planes on which the field is evaluated -/
def evalPlanes (par : Params) : Int :=
  if par.assume_stellarator_symmetry = true then par.number_of_phi_grid_points / 2 + 1
  else par.number_of_phi_grid_points

theorem isValid_ok : isValid par = .ok () ↔ 0 < par.number_of_field_periods ∧
    par.r_grid_minimum < par.r_grid_maximum ∧ 2 ≤ par.number_of_r_grid_points ∧
    par.z_grid_minimum < par.z_grid_maximum ∧ 2 ≤ par.number_of_z_grid_points ∧
    1 ≤ par.number_of_phi_grid_points := by
  unfold isValid
  constructor
  · intro h
    split at h <;> [cases h; skip]
    split at h <;> [cases h; skip]
    split at h <;> [cases h; skip]
    split at h <;> [cases h; skip]
    split at h <;> [cases h; skip]
    split at h <;> [cases h; skip]
    rename_i a b c d e f
    exact ⟨by omega, not_le.1 b, by omega, not_le.1 d, by omega, by omega⟩
  · rintro ⟨a, b, c, d, e, f⟩
    rw [if_neg (by omega), if_neg (not_le.2 b), if_neg (by omega), if_neg (not_le.2 d), if_neg (by omega),
      if_neg (by omega)]

theorem numPhi_ok (hp : 0 ≤ par.number_of_phi_grid_points) {n : Int} : numPhiEffective par = .ok n ↔
    (par.assume_stellarator_symmetry = true → ∃ h, par.number_of_phi_grid_points = 2 * h) ∧ n = evalPlanes par := by
  unfold numPhiEffective evalPlanes
  rw [Int.tmod_eq_emod_of_nonneg hp, Int.tdiv_eq_ediv_of_nonneg hp]
  by_cases hs : par.assume_stellarator_symmetry = true
  · simp only [hs, if_true, forall_const]
    by_cases h2 : par.number_of_phi_grid_points % 2 = 0
    · rw [if_neg (by simpa using h2)]
      constructor
      · rintro ⟨rfl⟩
        exact ⟨⟨par.number_of_phi_grid_points / 2, by omega⟩, rfl⟩
      · rintro ⟨-, rfl⟩; rfl
    · rw [if_pos h2]
      constructor
      · intro h; cases h
      · rintro ⟨⟨h, e⟩, -⟩; omega
  · simp only [hs, if_false, Outcome.ok.injEq, Bool.false_eq_true, false_imp_iff, true_and]
    exact eq_comm

theorem flat_inj3 {a b c a' b' c' : Int} (h3 : 0 ≤ b) (h4 : b < par.number_of_z_grid_points) (h5 : 0 ≤ c)
    (h6 : c < par.number_of_r_grid_points) (k3 : 0 ≤ b') (k4 : b' < par.number_of_z_grid_points) (k5 : 0 ≤ c')
    (k6 : c' < par.number_of_r_grid_points) (h : flat par a b c = flat par a' b' c') : a = a' ∧ b = b' ∧ c = c' := by
  have e : (a * par.number_of_z_grid_points + b) * par.number_of_r_grid_points + c =
      (a' * par.number_of_z_grid_points + b') * par.number_of_r_grid_points + c' := by
    rw [show ∀ x y z : Int, (x * par.number_of_z_grid_points + y) * par.number_of_r_grid_points + z = flat par x y z from
      fun x y z => linear_eq x y z, h]
    exact (linear_eq _ _ _).symm
  obtain ⟨e1, e2⟩ := flat_inj h5 h6 k5 k6 e
  obtain ⟨e3, e4⟩ := flat_inj h3 h4 k3 k4 e1
  exact ⟨e3, e4, e2⟩

theorem gridPoint_eq (hv : Valid par) (ip iz ir : Int) :
    gridPoint par ip iz ir = point (gridR par ir) (gridPhi par ip) (gridZ par iz) ∧
    (ip : ℝ) * delta_phi par = gridPhi par ip := by
  have e : (ip : ℝ) * delta_phi par = gridPhi par ip := by
    have h1 := hv.nfp
    have h2 := hv.nphi
    have h1' : (par.number_of_field_periods : ℝ) ≠ 0 := by exact_mod_cast h1.ne'
    have h2' : (par.number_of_phi_grid_points : ℝ) ≠ 0 := by exact_mod_cast (by omega : par.number_of_phi_grid_points ≠ 0)
    unfold delta_phi gridPhi
    push_cast
    field_simp
  refine ⟨?_, e⟩
  unfold gridPoint point
  dsimp only
  rw [e]
  have : par.r_grid_minimum + (ir : ℝ) * delta_r par = gridR par ir := by unfold delta_r gridR; ring
  rw [this]
  have : par.z_grid_minimum + (iz : ℝ) * delta_z par = gridZ par iz := by unfold delta_z gridZ; ring
  rw [this]

/-- the evaluation grid -/
theorem grid_ok {n : Int} {g : Int → V} : makeCylindricalGrid par = .ok (n, g) ↔ Valid par ∧
    n = evalPlanes par * par.number_of_z_grid_points * par.number_of_r_grid_points ∧
    g = (forRange 0 (evalPlanes par) (fun phi_index grid =>
      forRange 0 par.number_of_z_grid_points (fun z_index grid =>
        forRange 0 par.number_of_r_grid_points (fun r_index grid =>
          upd grid (linear par phi_index z_index r_index) (gridPoint par phi_index z_index r_index)) grid) grid)
      (fun _ => (0, 0, 0))) := by
  unfold makeCylindricalGrid
  cases hv : isValid par with
  | ok u =>
    obtain ⟨a, b, c, d, e, f⟩ := isValid_ok.1 hv
    simp only [Outcome.bind_ok]
    cases hn : numPhiEffective par with
    | ok k =>
      have := (numPhi_ok (by omega)).1 hn
      simp only [Outcome.bind_ok, Outcome.ok.injEq, Prod.mk.injEq]
      rw [this.2]
      constructor
      · rintro ⟨rfl, rfl⟩; exact ⟨⟨a, b, c, d, e, f, this.1⟩, rfl, rfl⟩
      · rintro ⟨-, rfl, rfl⟩; exact ⟨rfl, rfl⟩
    | status m =>
      simp only [Outcome.bind_status, reduceCtorEq, false_iff]
      rintro ⟨h, -⟩
      have := (numPhi_ok (n := evalPlanes par) (by omega)).2 ⟨h.even, rfl⟩
      rw [hn] at this; cases this
    | abort m =>
      simp only [Outcome.bind_abort, reduceCtorEq, false_iff]
      rintro ⟨h, -⟩
      have := (numPhi_ok (n := evalPlanes par) (by omega)).2 ⟨h.even, rfl⟩
      rw [hn] at this; cases this
    | throws m =>
      simp only [Outcome.bind_throws, reduceCtorEq, false_iff]
      rintro ⟨h, -⟩
      have := (numPhi_ok (n := evalPlanes par) (by omega)).2 ⟨h.even, rfl⟩
      rw [hn] at this; cases this
    | ub m =>
      simp only [Outcome.bind_ub, reduceCtorEq, false_iff]
      rintro ⟨h, -⟩
      have := (numPhi_ok (n := evalPlanes par) (by omega)).2 ⟨h.even, rfl⟩
      rw [hn] at this; cases this
  | _ =>
    simp only [Outcome.bind_status, Outcome.bind_abort, Outcome.bind_throws, Outcome.bind_ub, reduceCtorEq, false_iff]
    rintro ⟨h, -⟩
    have := isValid_ok.2 ⟨h.nfp, h.r, h.nr, h.z, h.nz, h.nphi⟩
    rw [hv] at this; cases this

theorem grid_at (hv : Valid par) {g : Int → V} {n : Int} (hg : makeCylindricalGrid par = .ok (n, g))
    {ip iz ir : Int} (h : OnGrid par ip iz ir) (hp : ip < evalPlanes par) :
    g (flat par ip iz ir) = point (gridR par ir) (gridPhi par ip) (gridZ par iz) := by
  obtain ⟨-, -, rfl⟩ := grid_ok.1 hg
  rw [← (gridPoint_eq hv ip iz ir).1, ← linear_eq]
  refine nest3 (fun a b c => linear par a b c) (fun a b c => gridPoint par a b c) ?_ _ h.p0 hp h.z0 h.z1 h.r0 h.r1
  intro a b c a' b' c' _ _ k3 k4 k5 k6 _ _ l3 l4 l5 l6 e
  rw [linear_eq, linear_eq] at e
  exact flat_inj3 k3 k4 k5 k6 l3 l4 l5 l6 e

/-! ## indices -/

theorem flat_parts (hv : Valid par) {ip iz ir : Int} (h : OnGrid par ip iz ir) :
    (flat par ip iz ir).tdiv (par.number_of_z_grid_points * par.number_of_r_grid_points) = ip ∧
    (flat par ip iz ir).tmod (par.number_of_z_grid_points * par.number_of_r_grid_points) =
      iz * par.number_of_r_grid_points + ir ∧
    (iz * par.number_of_r_grid_points + ir).tdiv par.number_of_r_grid_points = iz ∧
    (iz * par.number_of_r_grid_points + ir).tmod par.number_of_r_grid_points = ir := by
  have hnr := hv.nr
  have hnz := hv.nz
  have a1 : 0 ≤ iz * par.number_of_r_grid_points := mul_nonneg h.z0 (by omega)
  have hr0 := h.r0
  have hr1 := h.r1
  have a2 : iz * par.number_of_r_grid_points + ir < par.number_of_z_grid_points * par.number_of_r_grid_points := by
    have : (iz + 1) * par.number_of_r_grid_points ≤ par.number_of_z_grid_points * par.number_of_r_grid_points :=
      mul_le_mul_of_nonneg_right (by have := h.z1; omega) (by omega)
    linarith
  have b0 : 0 < par.number_of_z_grid_points * par.number_of_r_grid_points := mul_pos (by omega) (by omega)
  have f0 : 0 ≤ flat par ip iz ir := by
    unfold flat
    have := mul_nonneg h.p0 b0.le
    omega
  have e0 : 0 ≤ iz * par.number_of_r_grid_points + ir := by omega
  rw [Int.tdiv_eq_ediv_of_nonneg f0, Int.tmod_eq_emod_of_nonneg f0, Int.tdiv_eq_ediv_of_nonneg e0,
    Int.tmod_eq_emod_of_nonneg e0]
  unfold flat
  refine ⟨?_, ?_, ?_, ?_⟩
  · rw [add_comm, Int.add_mul_ediv_right _ _ b0.ne', Int.ediv_eq_zero_of_lt e0 a2, zero_add]
  · rw [add_comm, Int.add_mul_emod_self_right, Int.emod_eq_of_lt e0 a2]
  · rw [add_comm, Int.add_mul_ediv_right _ _ (by omega), Int.ediv_eq_zero_of_lt hr0 hr1, zero_add]
  · rw [add_comm, Int.add_mul_emod_self_right, Int.emod_eq_of_lt hr0 hr1]

theorem flat_range (hv : Valid par) {ip iz ir : Int} (h : OnGrid par ip iz ir) (E : Int) :
    0 ≤ flat par ip iz ir ∧
    (flat par ip iz ir < E * par.number_of_z_grid_points * par.number_of_r_grid_points ↔ ip < E) := by
  have hnr := hv.nr
  have hnz := hv.nz
  have b0 : 0 < par.number_of_z_grid_points * par.number_of_r_grid_points := mul_pos (by omega) (by omega)
  have a1 : 0 ≤ iz * par.number_of_r_grid_points := mul_nonneg h.z0 (by omega)
  have hr0 := h.r0
  have hr1 := h.r1
  have a2 : iz * par.number_of_r_grid_points + ir < par.number_of_z_grid_points * par.number_of_r_grid_points := by
    have : (iz + 1) * par.number_of_r_grid_points ≤ par.number_of_z_grid_points * par.number_of_r_grid_points :=
      mul_le_mul_of_nonneg_right (by have := h.z1; omega) (by omega)
    linarith
  have f0 : 0 ≤ ip * (par.number_of_z_grid_points * par.number_of_r_grid_points) := mul_nonneg h.p0 b0.le
  unfold flat
  refine ⟨by omega, ?_⟩
  rw [mul_assoc]
  constructor
  · intro hlt
    by_contra hc
    have : E * (par.number_of_z_grid_points * par.number_of_r_grid_points) ≤
        ip * (par.number_of_z_grid_points * par.number_of_r_grid_points) :=
      mul_le_mul_of_nonneg_right (by omega) b0.le
    omega
  · intro hlt
    have : (ip + 1) * (par.number_of_z_grid_points * par.number_of_r_grid_points) ≤
        E * (par.number_of_z_grid_points * par.number_of_r_grid_points) :=
      mul_le_mul_of_nonneg_right (by omega) b0.le
    linarith

/-- every index is a grid point -/
theorem flat_surj (hv : Valid par) {i : Int} (h0 : 0 ≤ i)
    (h1 : i < par.number_of_phi_grid_points * par.number_of_z_grid_points * par.number_of_r_grid_points) :
    ∃ ip iz ir, OnGrid par ip iz ir ∧ flat par ip iz ir = i := by
  have hnr := hv.nr
  have hnz := hv.nz
  have b0 : 0 < par.number_of_z_grid_points * par.number_of_r_grid_points := mul_pos (by omega) (by omega)
  rw [mul_assoc] at h1
  obtain ⟨a1, a2, a3, a4, a5⟩ := flat_div b0 h0 h1
  obtain ⟨c1, c2, c3, c4, c5⟩ := flat_div (by omega : 0 < par.number_of_r_grid_points) a3 a4
  exact ⟨_, _, _, ⟨a1, a2, c1, c2, c3, c4⟩, by unfold flat; rw [c5, a5]⟩

/-! ## one row -/

theorem toCyl_eq (hv : Valid par) (ip : Int) (b : V) : toCyl (cosPhi par) (sinPhi par) ip b = cyl (gridPhi par ip) b := by
  unfold toCyl cyl cosPhi sinPhi
  rw [(gridPoint_eq hv ip 0 0).2]
  refine Prod.ext rfl (Prod.ext ?_ rfl)
  dsimp only
  ring

theorem convert_at (cos_phi sin_phi : Int → ℝ) (field : Int → Option V) (n : Int) (t : Int → Option V) (i : Int)
    (h0 : 0 ≤ i) (h1 : i < n) :
    convert par cos_phi sin_phi field n t i = (field i).map
      (toCyl cos_phi sin_phi (i.tdiv (par.number_of_z_grid_points * par.number_of_r_grid_points))) := by
  unfold convert
  have := forRange_map (lo := 0) (hi := n)
    (fun j (t : Int → Option V) => upd t j ((field j).map
      (toCyl cos_phi sin_phi (j.tdiv (par.number_of_z_grid_points * par.number_of_r_grid_points)))))
    (fun j x => if i = j then (field j).map
      (toCyl cos_phi sin_phi (j.tdiv (par.number_of_z_grid_points * par.number_of_r_grid_points))) else x)
    (fun s : Int → Option V => s i) (fun j s => by simp [upd]) t
  refine this.trans ?_
  rw [forRange_only h0 h1]
  · rw [if_pos rfl]
  · intro j x _ _ hne
    rw [if_neg (Ne.symm hne)]

theorem mirror_at {n total : Int} (hn : n ≤ total) (t : Int → Option V)
    (hr : ∀ i, n ≤ i → i < total → reversed par i < n) :
    (∀ i, i < n → mirror par n total t i = t i) ∧
    ∀ i, n ≤ i → i < total → mirror par n total t i = (t (reversed par i)).map mirrored := by
  have := forRange_inv hn
    (fun linear_index (t : Int → Option V) => upd t linear_index ((t (reversed par linear_index)).map mirrored)) t
    (fun (j : Int) (s : Int → Option V) => (∀ i, i < n → s i = t i) ∧
      ∀ i, n ≤ i → i < j → s i = (t (reversed par i)).map mirrored)
    ⟨fun _ _ => rfl, fun i h1 h2 => absurd h2 (by omega)⟩ (by
      rintro j s h1 h2 ⟨k1, k2⟩
      refine ⟨fun i hi => ?_, fun i hi hj => ?_⟩
      · rw [upd_ne _ _ (by omega), k1 i hi]
      · by_cases e : i = j
        · subst e; rw [upd_same, k1 _ (hr i h1 h2)]
        · rw [upd_ne _ _ e, k2 i hi (by omega)])
  exact this

/-- mirrored entries are copied from computed ones -/
theorem reversed_at (hv : Valid par) (hs : par.assume_stellarator_symmetry = true) {ip iz ir : Int}
    (h : OnGrid par ip iz ir) (hp : evalPlanes par ≤ ip) :
    reversed par (flat par ip iz ir) =
      flat par (par.number_of_phi_grid_points - ip) (par.number_of_z_grid_points - 1 - iz) ir ∧
    OnGrid par (par.number_of_phi_grid_points - ip) (par.number_of_z_grid_points - 1 - iz) ir ∧
    par.number_of_phi_grid_points - ip < evalPlanes par := by
  obtain ⟨e1, e2, e3, e4⟩ := flat_parts hv h
  obtain ⟨hh, he⟩ := hv.even hs
  have hE : evalPlanes par = hh + 1 := by unfold evalPlanes; rw [if_pos hs]; omega
  have := h.p1; have := h.p0; have := h.z0; have := h.z1
  refine ⟨?_, ⟨by omega, by omega, by omega, by omega, h.r0, h.r1⟩, by omega⟩
  unfold reversed
  dsimp only
  rw [e1, e2, e3, e4, linear_eq]

theorem gridPhi_rev (hv : Valid par) (ip : Int) :
    gridPhi par (par.number_of_phi_grid_points - ip) = -gridPhi par ip + 2 * Real.pi / par.number_of_field_periods := by
  have h2' : (par.number_of_phi_grid_points : ℝ) ≠ 0 := by
    have := hv.nphi
    exact_mod_cast (by omega : par.number_of_phi_grid_points ≠ 0)
  unfold gridPhi
  push_cast
  rw [sub_div, div_self h2']
  ring

theorem gridZ_rev (hv : Valid par) (hz : par.z_grid_minimum = -par.z_grid_maximum) (iz : Int) :
    gridZ par (par.number_of_z_grid_points - 1 - iz) = -gridZ par iz := by
  have h2' : (par.number_of_z_grid_points : ℝ) - 1 ≠ 0 := by
    have := hv.nz
    have : (2 : ℝ) ≤ par.number_of_z_grid_points := by exact_mod_cast this
    linarith
  unfold gridZ
  rw [hz]
  push_cast
  rw [sub_div, div_self h2']
  ring

/-- one row of the table holds the field at all grid points -/
theorem row_at {g : Int → V} {n : Int} (hg : makeCylindricalGrid par = .ok (n, g)) (F : V → V)
    (hs : par.assume_stellarator_symmetry = true →
      par.z_grid_minimum = -par.z_grid_maximum ∧ Symmetric par.number_of_field_periods F)
    {ip iz ir : Int} (h : OnGrid par ip iz ir) :
    toCylindrical par (fun i => some (F (g i))) n
      (par.number_of_phi_grid_points * par.number_of_z_grid_points * par.number_of_r_grid_points) (flat par ip iz ir) =
      some (comps F (gridR par ir) (gridPhi par ip) (gridZ par iz)) := by
  have hv := (grid_ok.1 hg).1
  have hn := (grid_ok.1 hg).2.1
  have hnr := hv.nr
  have hnz := hv.nz
  have hnp := hv.nphi
  have conv : ∀ ip iz ir, OnGrid par ip iz ir → ip < evalPlanes par →
      convert par (cosPhi par) (sinPhi par) (fun i => some (F (g i))) n (fun _ => none) (flat par ip iz ir) =
        some (comps F (gridR par ir) (gridPhi par ip) (gridZ par iz)) := by
    intro ip iz ir h hp
    have hr := flat_range hv h (evalPlanes par)
    rw [convert_at _ _ _ _ _ _ hr.1 (by rw [hn]; exact hr.2.2 hp), (flat_parts hv h).1]
    simp only [Option.map_some, Option.some.injEq]
    rw [toCyl_eq hv, grid_at hv hg h hp]
    rfl
  have hE : evalPlanes par ≤ par.number_of_phi_grid_points := by
    unfold evalPlanes
    split
    · rename_i hs'
      obtain ⟨k, e⟩ := hv.even hs'
      omega
    · exact le_refl _
  unfold toCylindrical
  by_cases hlt : n < par.number_of_phi_grid_points * par.number_of_z_grid_points * par.number_of_r_grid_points
  · rw [if_pos hlt]
    have hsym : par.assume_stellarator_symmetry = true := by
      by_contra hc
      have : evalPlanes par = par.number_of_phi_grid_points := by unfold evalPlanes; rw [if_neg hc]
      rw [hn, this] at hlt
      exact lt_irrefl _ hlt
    have hrev : ∀ i, n ≤ i →
        i < par.number_of_phi_grid_points * par.number_of_z_grid_points * par.number_of_r_grid_points →
        reversed par i < n := by
      intro i h1 h2
      have hn0 : 0 ≤ n := by
        rw [hn]
        refine mul_nonneg (mul_nonneg ?_ (by omega)) (by omega)
        unfold evalPlanes; split <;> omega
      obtain ⟨a, b, c, hab, rfl⟩ := flat_surj hv (by omega) h2
      have hpa : evalPlanes par ≤ a := by
        by_contra hc
        have := (flat_range hv hab (evalPlanes par)).2.2 (by omega)
        rw [← hn] at this
        omega
      obtain ⟨e1, e2, e3⟩ := reversed_at hv hsym hab hpa
      rw [e1, hn]
      exact (flat_range hv e2 _).2.2 e3
    obtain ⟨m1, m2⟩ := mirror_at hlt.le
      (convert par (cosPhi par) (sinPhi par) (fun i => some (F (g i))) n (fun _ => none)) hrev
    by_cases hp : ip < evalPlanes par
    · rw [m1 _ (by rw [hn]; exact (flat_range hv h _).2.2 hp), conv ip iz ir h hp]
    · have hp : evalPlanes par ≤ ip := by omega
      obtain ⟨e1, e2, e3⟩ := reversed_at hv hsym h hp
      rw [m2 _ (by
          by_contra hc
          have := (flat_range hv h (evalPlanes par)).2.1 (by rw [← hn]; omega)
          omega) ((flat_range hv h _).2.2 h.p1), e1, conv _ _ _ e2 e3]
      obtain ⟨hz, hF⟩ := hs hsym
      simp only [Option.map_some, Option.some.injEq]
      rw [gridPhi_rev hv, gridZ_rev hv hz, hF.periodic, hF.mirror]
      simp [mirrored]
  · rw [if_neg hlt]
    refine conv ip iz ir h ?_
    by_contra hc
    have h1 := (flat_range hv h par.number_of_phi_grid_points).2.2 h.p1
    have h2 := (flat_range hv h (evalPlanes par)).2.not.2 hc
    rw [← hn] at h2
    omega

end Verif.Makegrid
