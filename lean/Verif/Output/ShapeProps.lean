import Verif.Output.Shape
import Verif.Output.GeometryCases
import Verif.Output.EnergyProps

/-!
# C96: the shape of the flux surfaces, local current ratios, the poloidal flux
-/
namespace Verif.Output
open Verif Verif.Fourier Finset

/-! ## the scan of a plane -/

theorem forRange_shift {α : Type*} (f : Int → α → α) (n d : Int) (hn : 0 ≤ n) (s : α) : forRange d (n + d) f s = forRange 0 n (fun l a => f (l + d) a) s := by
  obtain ⟨m, rfl⟩ := Int.eq_ofNat_of_zero_le hn
  induction m with
  | zero => rw [forRange_empty (by simp), forRange_empty (by simp)]
  | succ m ih =>
    have e : ((m + 1 : ℕ) : Int) = (m : Int) + 1 := by push_cast; ring
    rw [e, show (m : Int) + 1 + d = ((m : Int) + d) + 1 by ring, forRange_succ (by omega), forRange_succ (by omega), ih (by omega)]

theorem forRange_two {α : Type*} (f : Int → α → α) (s : α) : forRange 0 2 f s = f 1 (f 0 s) := by
  rw [show (2 : Int) = 0 + 1 + 1 by norm_num, forRange_succ (by norm_num), forRange_succ (by norm_num), forRange_empty (by norm_num)]; rfl

namespace Ext

theorem visit_x (e : Ext) (r z : ℝ) : ((e.visit r z).maximum_x = if r ≥ e.maximum_x then r else e.maximum_x) ∧
    ((e.visit r z).minimum_x = if r ≥ e.maximum_x then e.minimum_x else if r ≤ e.minimum_x then r else e.minimum_x) := by
  unfold visit
  simp only
  constructor <;> split_ifs <;> simp_all

theorem visit_z (e : Ext) (r z : ℝ) : ((e.visit r z).maximum_z = if z ≥ e.maximum_z then |z| else e.maximum_z) ∧
    ((e.visit r z).minimum_z = if z ≥ e.maximum_z then e.minimum_z else if z ≤ e.minimum_z then z else e.minimum_z) ∧
    ((e.visit r z).rzmax = if z ≥ e.maximum_z then r else e.rzmax) := by
  unfold visit
  simp only
  refine ⟨?_, ?_, ?_⟩ <;> split_ifs <;> simp_all

/-- first pass over the values of `R` -/
theorem pass1_x {n : Int} (hn : 1 ≤ n) (r z : Int → ℝ) (D : ℝ) (hD : ∀ l, -D < r l) (e0 : Ext) (h1 : e0.maximum_x = -D) (h2 : e0.minimum_x = D) :
    let e := forRange 0 n (fun l e => e.visit (r l) (z l)) e0
    (∀ l, 0 ≤ l → l < n → r l ≤ e.maximum_x) ∧ (∃ l, 0 ≤ l ∧ l < n ∧ e.maximum_x = r l) ∧ (e.minimum_x = D ∨ ∃ l, 0 ≤ l ∧ l < n ∧ e.minimum_x = r l) := by
  have := forRange_inv (lo := 0) (hi := n) (by omega) (fun l e => e.visit (r l) (z l)) e0
    (fun i (e : Ext) => (∀ l, 0 ≤ l → l < i → r l ≤ e.maximum_x) ∧ ((i = 0 ∧ e.maximum_x = -D) ∨ ∃ l, 0 ≤ l ∧ l < i ∧ e.maximum_x = r l) ∧ (e.minimum_x = D ∨ ∃ l, 0 ≤ l ∧ l < i ∧ e.minimum_x = r l))
    ⟨fun l a b => by omega, Or.inl ⟨rfl, h1⟩, Or.inl h2⟩ (by
      rintro i e i0 i1 ⟨a, b, c⟩
      obtain ⟨v1, v2⟩ := e.visit_x (r i) (z i)
      have c' : e.minimum_x = D ∨ ∃ l, 0 ≤ l ∧ l < i + 1 ∧ e.minimum_x = r l := c.imp id fun ⟨l, l0, l1, hl⟩ => ⟨l, l0, by omega, hl⟩
      by_cases hr : r i ≥ e.maximum_x
      · rw [if_pos hr] at v1 v2
        rw [v1, v2]
        refine ⟨fun l l0 l1 => ?_, Or.inr ⟨i, i0, by omega, rfl⟩, c'⟩
        rcases Int.lt_or_le l i with h | h
        · exact (a l l0 h).trans hr
        · rw [show l = i by omega]
      · rw [if_neg hr] at v1 v2
        rw [v1, v2]
        refine ⟨fun l l0 l1 => ?_, ?_, ?_⟩
        · rcases Int.lt_or_le l i with h | h
          · exact a l l0 h
          · rw [show l = i by omega]; exact (not_le.1 hr).le
        · rcases b with ⟨hi, hb⟩ | ⟨l, l0, l1, hb⟩
          · exact absurd (hb ▸ (hD i).le) hr
          · exact Or.inr ⟨l, l0, by omega, hb⟩
        · split_ifs
          · exact Or.inr ⟨i, i0, by omega, rfl⟩
          · exact c')
  obtain ⟨a, b, c⟩ := this
  exact ⟨a, b.resolve_left (by omega), c⟩

/-- second pass over the same values -/
theorem pass2_x {n : Int} (hn : 1 ≤ n) (r z : Int → ℝ) (D : ℝ) (e0 : Ext) (h1 : ∀ l, 0 ≤ l → l < n → r l ≤ e0.maximum_x) (h2 : e0.minimum_x = D ∨ ∃ l, 0 ≤ l ∧ l < n ∧ e0.minimum_x = r l) :
    let e := forRange 0 n (fun l e => e.visit (r l) (z l)) e0
    e.maximum_x = e0.maximum_x ∧ (∀ l, 0 ≤ l → l < n → r l < e0.maximum_x → e.minimum_x ≤ r l) ∧ (e.minimum_x = D ∨ ∃ l, 0 ≤ l ∧ l < n ∧ e.minimum_x = r l) := by
  refine forRange_inv (lo := 0) (hi := n) (by omega) (fun l e => e.visit (r l) (z l)) e0
    (fun i (e : Ext) => e.maximum_x = e0.maximum_x ∧ (∀ l, 0 ≤ l → l < i → r l < e0.maximum_x → e.minimum_x ≤ r l) ∧ (e.minimum_x = D ∨ ∃ l, 0 ≤ l ∧ l < n ∧ e.minimum_x = r l))
    ⟨rfl, fun l a b => by omega, h2⟩ ?_
  rintro i e i0 i1 ⟨a, b, c⟩
  obtain ⟨v1, v2⟩ := e.visit_x (r i) (z i)
  by_cases hr : r i ≥ e.maximum_x
  · rw [if_pos hr] at v1 v2
    have hi : r i = e0.maximum_x := le_antisymm (h1 i i0 i1) (a ▸ hr)
    rw [v1, v2]
    refine ⟨hi, fun l l0 l1 hl => ?_, c⟩
    rcases Int.lt_or_le l i with h | h
    · exact b l l0 h hl
    · rw [show l = i by omega, hi] at hl; exact absurd hl (lt_irrefl _)
  · rw [if_neg hr] at v1 v2
    rw [v1, v2]
    refine ⟨a, fun l l0 l1 hl => ?_, ?_⟩
    · rcases Int.lt_or_le l i with h | h
      · have := b l l0 h hl
        split_ifs with h3
        · exact h3.trans this
        · exact this
      · rw [show l = i by omega]
        split_ifs with h3
        · exact le_rfl
        · exact (not_le.1 h3).le
    · split_ifs
      · exact Or.inr ⟨i, i0, i1, rfl⟩
      · exact c

/-- one pass over values of `Z`; `V` are the points visited before -/
theorem pass_z {n : Int} (hn : 0 ≤ n) (r z : Int → ℝ) (D : ℝ) (e0 : Ext) (V : ℝ → ℝ → Prop) (h0 : 0 ≤ e0.maximum_z) (h1 : ∀ x y, V x y → y ≤ e0.maximum_z) (h2 : V e0.rzmax e0.maximum_z)
    (h3 : ∀ x y, V x y → y < 0 → e0.minimum_z ≤ y) (h4 : e0.minimum_z = D ∨ ∃ x, V x e0.minimum_z) :
    let e := forRange 0 n (fun l e => e.visit (r l) (z l)) e0
    let W := fun x y => V x y ∨ ∃ l, 0 ≤ l ∧ l < n ∧ x = r l ∧ y = z l
    0 ≤ e.maximum_z ∧ (∀ x y, W x y → y ≤ e.maximum_z) ∧ W e.rzmax e.maximum_z ∧ (∀ x y, W x y → y < 0 → e.minimum_z ≤ y) ∧ (e.minimum_z = D ∨ ∃ x, W x e.minimum_z) := by
  refine forRange_inv (lo := 0) (hi := n) (by omega) (fun l e => e.visit (r l) (z l)) e0
    (fun i (e : Ext) => 0 ≤ e.maximum_z ∧ (∀ x y, (V x y ∨ ∃ l, 0 ≤ l ∧ l < i ∧ x = r l ∧ y = z l) → y ≤ e.maximum_z) ∧ (V e.rzmax e.maximum_z ∨ ∃ l, 0 ≤ l ∧ l < i ∧ e.rzmax = r l ∧ e.maximum_z = z l) ∧
      (∀ x y, (V x y ∨ ∃ l, 0 ≤ l ∧ l < i ∧ x = r l ∧ y = z l) → y < 0 → e.minimum_z ≤ y) ∧ (e.minimum_z = D ∨ ∃ x, (V x e.minimum_z ∨ ∃ l, 0 ≤ l ∧ l < i ∧ x = r l ∧ e.minimum_z = z l)))
    ⟨h0, fun x y h => h.elim (h1 x y) (by rintro ⟨l, a, b, _⟩; omega), Or.inl h2, fun x y h => h.elim (h3 x y) (by rintro ⟨l, a, b, _⟩; omega), h4.imp id fun ⟨x, h⟩ => ⟨x, Or.inl h⟩⟩ ?_
  rintro i e i0 i1 ⟨a, b, c, d, f⟩
  obtain ⟨v1, v2, v3⟩ := e.visit_z (r i) (z i)
  have grow {x y : ℝ} (h : V x y ∨ ∃ l, 0 ≤ l ∧ l < i ∧ x = r l ∧ y = z l) : V x y ∨ ∃ l, 0 ≤ l ∧ l < i + 1 ∧ x = r l ∧ y = z l := h.imp id fun ⟨l, l0, l1, hl⟩ => ⟨l, l0, by omega, hl⟩
  have split {x y : ℝ} (h : V x y ∨ ∃ l, 0 ≤ l ∧ l < i + 1 ∧ x = r l ∧ y = z l) : (V x y ∨ ∃ l, 0 ≤ l ∧ l < i ∧ x = r l ∧ y = z l) ∨ y = z i := by
    rcases h with h | ⟨l, l0, l1, hx, hy⟩
    · exact Or.inl (Or.inl h)
    · rcases Int.lt_or_le l i with h' | h'
      · exact Or.inl (Or.inr ⟨l, l0, h', hx, hy⟩)
      · right; rw [hy, show l = i by omega]
  by_cases hz : z i ≥ e.maximum_z
  · rw [if_pos hz] at v1 v2 v3
    rw [abs_of_nonneg (a.trans hz)] at v1
    rw [v1, v2, v3]
    refine ⟨a.trans hz, fun x y h => ?_, Or.inr ⟨i, i0, by omega, rfl, rfl⟩, fun x y h hy => ?_, f.imp id fun ⟨x, h⟩ => ⟨x, grow h⟩⟩
    · rcases split h with h | h
      · exact (b x y h).trans hz
      · exact h.le
    · rcases split h with h | h
      · exact d x y h hy
      · exact absurd (a.trans hz) (not_le.2 (h ▸ hy))
  · rw [if_neg hz] at v1 v2 v3
    rw [v1, v2, v3]
    refine ⟨a, fun x y h => ?_, grow c, fun x y h hy => ?_, ?_⟩
    · rcases split h with h | h
      · exact b x y h
      · rw [h]; exact (not_le.1 hz).le
    · rcases split h with h | h
      · have := d x y h hy
        split_ifs with h3
        · exact h3.trans this
        · exact this
      · rw [h]
        split_ifs with h3
        · exact le_rfl
        · exact (not_le.1 h3).le
    · split_ifs
      · exact Or.inr ⟨r i, Or.inr ⟨i, i0, by omega, rfl, rfl⟩⟩
      · exact f.imp id fun ⟨x, h⟩ => ⟨x, grow h⟩

end Ext

/-! ## specification: a flux surface, and the extent of its cross section -/

/-- the arrays hold, on the full-grid surface `jF`, the values of the surface on the grid: even part plus `√s` times odd part -/
structure SurfaceAt (I : GeomIn) (jF : Int) (S : Surface I.s) : Prop where
  r : ∀ k l, 0 ≤ k → k < I.s.nZeta → 0 ≤ l → l < I.s.nThetaEff → I.R.gridF .r_e (jF * I.s.nZnT + (k * I.s.nThetaEff + l)) +
    I.R.profF .sqrtSF jF * I.R.gridF .r_o (jF * I.s.nZnT + (k * I.s.nThetaEff + l)) = S.R (thetaGrid I.s l) (phiGrid I.s k)
  z : ∀ k l, 0 ≤ k → k < I.s.nZeta → 0 ≤ l → l < I.s.nThetaEff → I.R.gridF .z_e (jF * I.s.nZnT + (k * I.s.nThetaEff + l)) +
    I.R.profF .sqrtSF jF * I.R.gridF .z_o (jF * I.s.nZnT + (k * I.s.nThetaEff + l)) = S.Z (thetaGrid I.s l) (phiGrid I.s k)

/-- the points of the full poloidal grid in the plane `k` -/
def Surface.cross {s : Sizes.Sizes} (S : Surface s) (k : Int) : Set (ℝ × ℝ) := {p | ∃ l, 0 ≤ l ∧ l < s.nThetaEven ∧ p = (S.R (thetaGrid s l) (phiGrid s k), S.Z (thetaGrid s l) (phiGrid s k))}

section
variable {lasym : Bool} {nfp mpol ntor ntheta nzeta mg ng : Int} {I : GeomIn} (hs : Sizes.mk lasym nfp mpol ntor ntheta nzeta mg ng = .ok I.s)
include hs

theorem at_eq {jF : Int} {S : Surface I.s} (h : SurfaceAt I jF S) {k l : Int} (k0 : 0 ≤ k) (k1 : k < I.s.nZeta) (l0 : 0 ≤ l) (l1 : l < I.s.nThetaEff) :
    I.rAt jF k l = S.R (thetaGrid I.s l) (phiGrid I.s k) ∧ I.zAt jF k l = S.Z (thetaGrid I.s l) (phiGrid I.s k) := by
  obtain ⟨q1, _⟩ := nZnT_eq hs
  have e : (jF * I.s.nZeta + k) * I.s.nThetaEff + l = jF * I.s.nZnT + (k * I.s.nThetaEff + l) := by rw [q1]; ring
  unfold GeomIn.rAt GeomIn.zAt
  simp only [e]
  exact ⟨h.r k l k0 k1 l0 l1, h.z k l k0 k1 l0 l1⟩

/-- the plane `k` is a plane of symmetry -/
theorem cross_eq (S : Surface I.s) (hl : I.s.lasym = false) (k : Int) (k0 : 0 ≤ k) (k1 : k < I.s.nZeta) (hk : k = 0 ∨ 2 * k = I.s.nZeta) :
    (I.s.nZeta - k).tmod I.s.nZeta = k ∧ S.Z (thetaGrid I.s 0) (phiGrid I.s k) = 0 ∧
    (∀ p, p ∈ S.cross k ↔ ∃ l, 0 ≤ l ∧ l < I.s.nThetaReduced ∧ p.1 = S.R (thetaGrid I.s l) (phiGrid I.s k) ∧
      (p.2 = S.Z (thetaGrid I.s l) (phiGrid I.s k) ∨ p.2 = -S.Z (thetaGrid I.s l) (phiGrid I.s k))) := by
  obtain ⟨q1, q2, q3, q4, q5⟩ := nZnT_eq hs
  rw [hl] at q2
  simp only [Bool.false_eq_true, if_false] at q2
  have hN : (I.s.nThetaEven : ℝ) ≠ 0 := by exact_mod_cast (by omega : I.s.nThetaEven ≠ 0)
  have hZ : (I.s.nZeta : ℝ) ≠ 0 := by exact_mod_cast (by omega : I.s.nZeta ≠ 0)
  have hnfp := nfp_ne hs
  have flip (f : ℝ → ℝ → ℝ) (hf : TrigPoly I.s.nfp (I.s.mpol - 1) I.s.ntor f) (θ : ℝ) : f θ (-phiGrid I.s k) = f θ (phiGrid I.s k) := by
    rcases hk with hk | hk
    · rw [hk]; unfold phiGrid zetaGrid; norm_num
    · have e : phiGrid I.s k = -phiGrid I.s k + 2 * Real.pi / I.s.nfp := by
        have : (2 * k : ℝ) = I.s.nZeta := by exact_mod_cast hk
        unfold phiGrid zetaGrid
        field_simp
        linarith
      conv_rhs => rw [e]
      rw [hf.per_phi hnfp]
  have refl (l : Int) : S.R (thetaGrid I.s (I.s.nThetaEven - l)) (phiGrid I.s k) = S.R (thetaGrid I.s l) (phiGrid I.s k) ∧
      S.Z (thetaGrid I.s (I.s.nThetaEven - l)) (phiGrid I.s k) = -S.Z (thetaGrid I.s l) (phiGrid I.s k) := by
    have eθ : thetaGrid I.s (I.s.nThetaEven - l) = -thetaGrid I.s l + 2 * Real.pi := by unfold thetaGrid; push_cast; field_simp; ring
    rw [eθ, S.hR.per_theta, S.hZ.per_theta, ← flip S.R S.hR, ← flip S.Z S.hZ]
    exact S.sym hl _ _
  have z0 : S.Z (thetaGrid I.s 0) (phiGrid I.s k) = 0 := by
    have := (S.sym hl 0 (phiGrid I.s k)).2
    rw [neg_zero, flip S.Z S.hZ] at this
    have e0 : thetaGrid I.s 0 = 0 := by unfold thetaGrid; simp
    rw [e0]; linarith
  refine ⟨?_, z0, fun p => ⟨?_, ?_⟩⟩
  · rcases hk with hk | hk
    · rw [hk, sub_zero, Int.tmod_self]
    · rw [show I.s.nZeta - k = k by omega, Int.tmod_eq_emod_of_nonneg k0, Int.emod_eq_of_lt k0 k1]
  · rintro ⟨l, l0, l1, rfl⟩
    rcases Int.lt_or_le l I.s.nThetaReduced with h | h
    · exact ⟨l, l0, h, rfl, Or.inl rfl⟩
    · obtain ⟨e1, e2⟩ := refl (I.s.nThetaEven - l)
      rw [show I.s.nThetaEven - (I.s.nThetaEven - l) = l by ring] at e1 e2
      exact ⟨I.s.nThetaEven - l, by omega, by omega, e1, Or.inr e2⟩
  · rintro ⟨l, l0, l1, h1, h2⟩
    rcases h2 with h2 | h2
    · exact ⟨l, l0, by omega, Prod.ext h1 h2⟩
    · by_cases hl0 : l = 0
      · subst hl0
        exact ⟨0, le_rfl, by omega, Prod.ext h1 (by rw [h2, z0, neg_zero])⟩
      · obtain ⟨e1, e2⟩ := refl l
        exact ⟨I.s.nThetaEven - l, by omega, by omega, Prod.ext (h1.trans e1.symm) (h2.trans e2.symm)⟩

/-- **C96** (extent): with the symmetry of the configuration, in a plane of symmetry, the scan finds the extent of the cross section: `maximum_x` and `minimum_x` are the largest and the smallest
    `R`, `maximum_z` and `minimum_z` the largest and the smallest `Z` of the points of the full poloidal grid, and `rzmax` is the `R` of a highest point.  The full claim is about every run of the code:
    without the symmetry it is false, see `C96_extent_fails`. -/
theorem C96_extent_partial {jF : Int} {S : Surface I.s} (h : SurfaceAt I jF S) (hl : I.s.lasym = false) (k : Int) (k0 : 0 ≤ k) (k1 : k < I.s.nZeta) (hk : k = 0 ∨ 2 * k = I.s.nZeta)
    (hD : ∀ θ φ, |S.R θ φ| < I.dblMax) (hx : ∃ p ∈ S.cross k, ∃ q ∈ S.cross k, p.1 ≠ q.1) (hz : ∃ p ∈ S.cross k, p.2 ≠ 0) :
    IsGreatest (Prod.fst '' S.cross k) (I.scan jF k).maximum_x ∧ IsLeast (Prod.fst '' S.cross k) (I.scan jF k).minimum_x ∧
    IsGreatest (Prod.snd '' S.cross k) (I.scan jF k).maximum_z ∧ IsLeast (Prod.snd '' S.cross k) (I.scan jF k).minimum_z ∧
    ((I.scan jF k).rzmax, (I.scan jF k).maximum_z) ∈ S.cross k := by
  obtain ⟨q1, q2, q3, q4, q5⟩ := nZnT_eq hs
  rw [hl] at q2
  simp only [Bool.false_eq_true, if_false] at q2
  obtain ⟨c1, c2, c3⟩ := cross_eq hs S hl k k0 k1 hk
  set r : Int → ℝ := fun l => I.rAt jF k l with hr
  set z : Int → ℝ := fun l => I.zAt jF k l with hzd
  have er (l : Int) (l0 : 0 ≤ l) (l1 : l < I.s.nThetaReduced) := at_eq hs h k0 k1 l0 (show l < I.s.nThetaEff by omega)
  have hD0 : 0 < I.dblMax := (abs_nonneg _).trans_lt (hD 0 0)
  have n1 : 1 ≤ I.s.nThetaReduced := by omega
  -- the scan as two passes
  set e0 : Ext := { minimum_z := I.dblMax, maximum_z := -I.dblMax, minimum_x := I.dblMax, maximum_x := -I.dblMax, rzmax := 0 } with he0
  -- a version of the values that is bounded everywhere
  set r' : Int → ℝ := fun l => if 0 ≤ l ∧ l < I.s.nThetaReduced then r l else 0 with hr'
  have hr'D (l : Int) : -I.dblMax < r' l := by
    simp only [hr']
    split_ifs with hc
    · have := (abs_lt.1 (hD (thetaGrid I.s l) (phiGrid I.s k))).1
      rw [← (er l hc.1 hc.2).1] at this
      exact this
    · linarith
  have p1 : forRange 0 I.s.nThetaReduced (fun l e => e.visit (r l) (1 * z l)) e0 = forRange 0 I.s.nThetaReduced (fun l e => e.visit (r' l) (z l)) e0 :=
    forRange_congr _ _ e0 (fun l e l0 l1 => by simp only [hr', if_pos (And.intro l0 l1), one_mul])
  set e1 := forRange 0 I.s.nThetaReduced (fun l e => e.visit (r' l) (z l)) e0 with he1
  have hscan : I.scan jF k = forRange 0 I.s.nThetaReduced (fun l e => e.visit (r' l) (-z l)) e1 := by
    unfold GeomIn.scan
    rw [forRange_two]
    simp only [show ((0 : Int) = 1) = False by simp, if_false, if_true]
    rw [c1]
    have := p1
    simp only [hr, hzd] at this
    rw [this]
    exact forRange_congr _ _ _ (fun l e l0 l1 => by simp only [hr', if_pos (And.intro l0 l1), hr, hzd, neg_one_mul])
  set e2 := I.scan jF k with he2
  -- x
  obtain ⟨x1, x2, x3⟩ := Ext.pass1_x n1 r' z I.dblMax hr'D e0 rfl rfl
  obtain ⟨y1, y2, y3⟩ := Ext.pass2_x n1 r' (fun l => -z l) I.dblMax e1 x1 x3
  rw [← hscan] at y1 y2 y3
  have val {l : Int} (l0 : 0 ≤ l) (l1 : l < I.s.nThetaReduced) : r' l = S.R (thetaGrid I.s l) (phiGrid I.s k) := by
    simp only [hr', if_pos (And.intro l0 l1)]; exact (er l l0 l1).1
  have zval {l : Int} (l0 : 0 ≤ l) (l1 : l < I.s.nThetaReduced) : z l = S.Z (thetaGrid I.s l) (phiGrid I.s k) := (er l l0 l1).2
  have mem1 {l : Int} (l0 : 0 ≤ l) (l1 : l < I.s.nThetaReduced) : (r' l, z l) ∈ S.cross k := (c3 _).2 ⟨l, l0, l1, val l0 l1, Or.inl (zval l0 l1)⟩
  have mem2 {l : Int} (l0 : 0 ≤ l) (l1 : l < I.s.nThetaReduced) : (r' l, -z l) ∈ S.cross k := (c3 _).2 ⟨l, l0, l1, val l0 l1, Or.inr (by simp only [zval l0 l1])⟩
  have fst {p : ℝ × ℝ} (hp : p ∈ S.cross k) : ∃ l, 0 ≤ l ∧ l < I.s.nThetaReduced ∧ p.1 = r' l ∧ (p.2 = z l ∨ p.2 = -z l) := by
    obtain ⟨l, l0, l1, a, b⟩ := (c3 p).1 hp
    exact ⟨l, l0, l1, by rw [a, val l0 l1], by rw [zval l0 l1]; exact b⟩
  have low : ∃ l, 0 ≤ l ∧ l < I.s.nThetaReduced ∧ r' l < e1.maximum_x := by
    by_contra hc
    push Not at hc
    obtain ⟨p, hp, q, hq, hne⟩ := hx
    obtain ⟨l, l0, l1, a, _⟩ := fst hp
    obtain ⟨m, m0, m1, b, _⟩ := fst hq
    exact hne (by rw [a, b, le_antisymm (x1 l l0 l1) (hc l l0 l1), le_antisymm (x1 m m0 m1) (hc m m0 m1)])
  have ymin (l : Int) (l0 : 0 ≤ l) (l1 : l < I.s.nThetaReduced) : e2.minimum_x ≤ r' l := by
    rcases lt_or_eq_of_le (x1 l l0 l1) with hlt | heq
    · exact y2 l l0 l1 hlt
    · obtain ⟨m, m0, m1, hm⟩ := low
      rw [heq]
      exact (y2 m m0 m1 hm).trans hm.le
  have GX : IsGreatest (Prod.fst '' S.cross k) e2.maximum_x := by
    obtain ⟨l, l0, l1, hl⟩ := x2
    refine ⟨⟨(r' l, z l), mem1 l0 l1, by rw [y1]; exact hl.symm⟩, ?_⟩
    rintro _ ⟨p, hp, rfl⟩
    obtain ⟨m, m0, m1, a, _⟩ := fst hp
    rw [a, y1]; exact x1 m m0 m1
  have LX : IsLeast (Prod.fst '' S.cross k) e2.minimum_x := by
    refine ⟨?_, ?_⟩
    · rcases y3 with y3 | ⟨l, l0, l1, hl⟩
      · exfalso
        have := ymin 0 le_rfl (by omega)
        rw [y3, val le_rfl (by omega)] at this
        exact absurd ((abs_lt.1 (hD (thetaGrid I.s 0) (phiGrid I.s k))).2) (not_lt.2 this)
      · exact ⟨(r' l, z l), mem1 l0 l1, hl.symm⟩
    · rintro _ ⟨p, hp, rfl⟩
      obtain ⟨m, m0, m1, a, _⟩ := fst hp
      rw [a]; exact ymin m m0 m1
  -- z: the first point
  have z0 : z 0 = 0 := by rw [zval le_rfl (by omega), c2]
  have first : e1 = forRange 1 I.s.nThetaReduced (fun l e => e.visit (r' l) (z l)) (e0.visit (r' 0) 0) := by
    rw [he1, forRange_cons (by omega)]
    simp only [z0, zero_add]
  set f0 := e0.visit (r' 0) 0 with hf0
  obtain ⟨v1, v2, v3⟩ := e0.visit_z (r' 0) 0
  have hge : (0 : ℝ) ≥ e0.maximum_z := by show (0 : ℝ) ≥ -I.dblMax; linarith
  rw [if_pos hge, abs_zero] at v1
  rw [if_pos hge] at v2 v3
  -- run the first pass again from its first point: this changes nothing in the argument
  have hV := Ext.pass_z (n := I.s.nThetaReduced - 1) (by omega) (fun l => r' (l + 1)) (fun l => z (l + 1)) I.dblMax f0 (fun x y => x = r' 0 ∧ y = 0) (by rw [v1]) (by rintro x y ⟨_, rfl⟩; rw [v1])
    ⟨v3, v1⟩ (by rintro x y ⟨_, rfl⟩ h; exact absurd h (lt_irrefl _)) (Or.inl v2)
  have shift : forRange 0 (I.s.nThetaReduced - 1) (fun l e => e.visit (r' (l + 1)) (z (l + 1))) f0 = e1 := by
    rw [first]
    have := forRange_shift (fun l (e : Ext) => e.visit (r' l) (z l)) (I.s.nThetaReduced - 1) 1 (by omega) f0
    rw [sub_add_cancel] at this
    exact this.symm
  simp only [shift] at hV
  obtain ⟨w0, w1, w2, w3, w4⟩ := hV
  have hW := Ext.pass_z (n := I.s.nThetaReduced) (by omega) r' (fun l => -z l) I.dblMax e1 _ w0 w1 w2 w3 w4
  rw [← hscan] at hW
  simp only at hW
  obtain ⟨u0, u1, u2, u3, u4⟩ := hW
  have inC {x y : ℝ} (hp : ((x = r' 0 ∧ y = 0) ∨ ∃ l, 0 ≤ l ∧ l < I.s.nThetaReduced - 1 ∧ x = r' (l + 1) ∧ y = z (l + 1)) ∨ ∃ l, 0 ≤ l ∧ l < I.s.nThetaReduced ∧ x = r' l ∧ y = -z l) :
      (x, y) ∈ S.cross k := by
    rcases hp with (⟨rfl, rfl⟩ | ⟨l, l0, l1, rfl, rfl⟩) | ⟨l, l0, l1, rfl, rfl⟩
    · have := mem1 (l := 0) le_rfl (by omega); rwa [z0] at this
    · exact mem1 (by omega) (by omega)
    · exact mem2 l0 l1
  have ofC {x y : ℝ} (hp : (x, y) ∈ S.cross k) : ((x = r' 0 ∧ y = 0) ∨ ∃ l, 0 ≤ l ∧ l < I.s.nThetaReduced - 1 ∧ x = r' (l + 1) ∧ y = z (l + 1)) ∨
      ∃ l, 0 ≤ l ∧ l < I.s.nThetaReduced ∧ x = r' l ∧ y = -z l := by
    obtain ⟨l, l0, l1, a, b | b⟩ := fst hp
    · left
      by_cases h0 : l = 0
      · subst h0; exact Or.inl ⟨a, by rw [← z0]; exact b⟩
      · exact Or.inr ⟨l - 1, by omega, by omega, by rw [sub_add_cancel]; exact a, by rw [sub_add_cancel]; exact b⟩
    · exact Or.inr ⟨l, l0, l1, a, b⟩
  have neg {x y : ℝ} (hp : (x, y) ∈ S.cross k) : (x, -y) ∈ S.cross k := by
    obtain ⟨l, l0, l1, a, b | b⟩ := fst hp
    · simp only at a b; rw [a, b]; exact mem2 l0 l1
    · simp only at a b; rw [a, b, neg_neg]; exact mem1 l0 l1
  have GZ : IsGreatest (Prod.snd '' S.cross k) e2.maximum_z := by
    refine ⟨⟨_, inC u2, rfl⟩, ?_⟩
    rintro _ ⟨⟨x, y⟩, hp, rfl⟩
    exact u1 x y (ofC hp)
  have pos : 0 < e2.maximum_z := by
    obtain ⟨⟨x, y⟩, hp, hne⟩ := hz
    simp only at hne
    rcases lt_or_gt_of_ne hne with h | h
    · have := u1 x (-y) (ofC (neg hp)); linarith
    · exact h.trans_le (u1 x y (ofC hp))
  have mneg : e2.minimum_z ≤ -e2.maximum_z := u3 _ _ (ofC (neg (inC u2))) (by linarith)
  refine ⟨GX, LX, GZ, ⟨?_, ?_⟩, inC u2⟩
  · rcases u4 with u4 | ⟨x, hx⟩
    · exfalso; rw [u4] at mneg; linarith
    · exact ⟨_, inC hx, rfl⟩
  · rintro _ ⟨⟨x, y⟩, hp, rfl⟩
    have := u1 x (-y) (ofC (neg hp))
    simp only
    linarith

/-! ## the columns of the table -/
omit hs in
theorem fill_off (lo hi c : Int) (g a0 : Int → ℝ) (i : Int) : forRange lo hi (fun j a => upd a (c + j) (g j)) a0 i = if lo ≤ i - c ∧ i - c < hi then g (i - c) else a0 i :=
  Radial.pickLoop (fun a : Int → ℝ => a i) (fun j a => upd a (c + j) (g j)) (lo := lo) (hi := hi) (i0 := i - c) (fun _ => g (i - c))
    (fun j a _ _ h => upd_ne _ _ (by omega)) (fun a _ _ => by show upd a (c + (i - c)) _ i = _; rw [show c + (i - c) = i by ring, upd_same]) a0

omit hs in
theorem column_eq (hns : 0 ≤ I.ns) (f : Int → Int → ℝ) {p jF : Int} (p0 : 0 ≤ p) (p1 : p < 2) (j0 : 1 ≤ jF) (j1 : jF < I.ns) :
    I.column f (p * I.ns + jF) = if p = 0 then f jF 0 else if I.s.nZeta = 1 then 0 else f jF (I.s.nZeta.tdiv 2) := by
  unfold GeomIn.column
  rw [forRange_two]
  simp only [show ¬((0 : Int) > 0) by omega, false_and, if_false, show ((1 : Int) > 0) by omega, true_and, if_true, zero_mul, one_mul]
  rcases (by omega : p = 0 ∨ p = 1) with rfl | rfl
  · rw [if_pos rfl, zero_mul, zero_add]
    split_ifs with h
    · rw [fill_off, if_pos ⟨by omega, by omega⟩, sub_zero]
    · rw [fill_off, if_neg (by omega), fill_off, if_pos ⟨by omega, by omega⟩, sub_zero]
  · rw [one_mul]
    simp only [show ¬((1 : Int) = 0) by omega, if_false]
    split_ifs with h
    · rw [fill_off, if_neg (by omega)]
    · rw [fill_off, if_pos ⟨by omega, by omega⟩, show I.ns + jF - I.ns = jF by ring]

/-- **C96** (shape): with the symmetry of the configuration, for the plane `φ = 0` (`p = 0`) and, with an even number of toroidal points, for the plane in the middle of the field period (`p = 1`), the
    columns of the table are, for the surface `jF`: half the width in the midplane, the indentation, the elongation (height over width), the triangularity (distance of a highest point from the
    geometric centre, over the width) and the shift of the axis from the geometric centre, over the width.  The full claim includes runs without the symmetry and odd numbers of toroidal points. -/
theorem C96_shape_partial {jF : Int} {S : Surface I.s} (h : SurfaceAt I jF S) (hl : I.s.lasym = false) (j0 : 1 ≤ jF) (j1 : jF < I.ns) {p k : Int} (hp : (p = 0 ∧ k = 0) ∨ (p = 1 ∧ 2 * k = I.s.nZeta))
    (hD : ∀ θ φ, |S.R θ φ| < I.dblMax) (hz : ∃ q ∈ S.cross k, q.2 ≠ 0) (axis : ℝ → ℝ) (hax : ∀ k, 0 ≤ k → k < I.s.nZeta → I.R.gridF .r_e (k * I.s.nThetaEff) = axis (phiGrid I.s k))
    {xmin xmax zmin zmax : ℝ} (hx1 : IsLeast (Prod.fst '' S.cross k) xmin) (hx2 : IsGreatest (Prod.fst '' S.cross k) xmax) (hx : xmin < xmax) (hz1 : IsLeast (Prod.snd '' S.cross k) zmin)
    (hz2 : IsGreatest (Prod.snd '' S.cross k) zmax) :
    let φ := phiGrid I.s k
    let centre := (S.R 0 φ + S.R Real.pi φ) / 2
    I.ygeo (p * I.ns + jF) = (S.R 0 φ - S.R Real.pi φ) / 2 ∧ I.yinden (p * I.ns + jF) = (S.R Real.pi φ - xmin) / (xmax - xmin) ∧ I.yellip (p * I.ns + jF) = (zmax - zmin) / (xmax - xmin) ∧
    (∃ top, (top, zmax) ∈ S.cross k ∧ I.ytrian (p * I.ns + jF) = (centre - top) / (xmax - xmin)) ∧ I.yshift (p * I.ns + jF) = (axis φ - centre) / (xmax - xmin) := by
  obtain ⟨q1, q2, q3, q4, q5⟩ := nZnT_eq hs
  rw [hl] at q2
  simp only [Bool.false_eq_true, if_false] at q2
  have k0 : 0 ≤ k := by omega
  have k1 : k < I.s.nZeta := by omega
  have hk : k = 0 ∨ 2 * k = I.s.nZeta := by tauto
  have hne : ∃ p ∈ S.cross k, ∃ q ∈ S.cross k, p.1 ≠ q.1 := by
    obtain ⟨a, ha, ea⟩ := hx1.1
    obtain ⟨b, hb, eb⟩ := hx2.1
    exact ⟨a, ha, b, hb, by rw [ea, eb]; exact hx.ne⟩
  obtain ⟨e1, e2, e3, e4, e5⟩ := C96_extent_partial hs h hl k k0 k1 hk hD hne hz
  have f1 := e1.unique hx2
  have f2 := e2.unique hx1
  have f3 := e3.unique hz2
  have f4 := e4.unique hz1
  have col (f : Int → Int → ℝ) : I.column f (p * I.ns + jF) = f jF k := by
    rw [column_eq (by omega) f (by omega) (by omega) j0 j1]
    rcases hp with ⟨rfl, rfl⟩ | ⟨rfl, h2⟩
    · rw [if_pos rfl]
    · rw [if_neg (by norm_num), if_neg (by omega), ← h2, Int.mul_tdiv_cancel_left _ (by norm_num)]
  have hN : (I.s.nThetaEven : ℝ) ≠ 0 := by exact_mod_cast (by omega : I.s.nThetaEven ≠ 0)
  have ma : I.xmida jF k = S.R Real.pi (phiGrid I.s k) := by
    have : thetaGrid I.s (I.s.nThetaReduced - 1) = Real.pi := by
      have e : (I.s.nThetaEven : ℝ) = 2 * (I.s.nThetaReduced - 1 : Int) := by exact_mod_cast (by omega : I.s.nThetaEven = 2 * (I.s.nThetaReduced - 1))
      unfold thetaGrid
      rw [div_eq_iff hN, e]; ring
    unfold GeomIn.xmida
    rw [(at_eq hs h k0 k1 (by omega) (by omega)).1, this]
  have mb : I.xmidb jF k = S.R 0 (phiGrid I.s k) := by
    have : thetaGrid I.s 0 = 0 := by unfold thetaGrid; simp
    unfold GeomIn.xmidb
    rw [(at_eq hs h k0 k1 le_rfl (by omega)).1, this]
  intro φ centre
  have hc : I.rgeo jF k = centre := by unfold GeomIn.rgeo; rw [ma, mb]
  refine ⟨?_, ?_, ?_, ⟨(I.scan jF k).rzmax, by rw [← f3]; exact e5, ?_⟩, ?_⟩
  · unfold GeomIn.ygeo; rw [col, ma, mb]
  · unfold GeomIn.yinden; rw [col, ma, f1, f2]
  · unfold GeomIn.yellip; rw [col, f1, f2, f3, f4]
  · unfold GeomIn.ytrian; rw [col, hc, f1, f2]
  · unfold GeomIn.yshift; rw [col, hc, f1, f2, add_zero, hax k k0 k1]

/-- **C96** (bounds): under the same hypotheses, if the midplane is outboard at `θ = 0`, the half width in the midplane is at most half the width of the surface, the indentation lies between 0 and 1,
    the elongation is positive, and triangularity and shift of an axis inside the surface are at most 1 in absolute value -/
theorem C96_bounds_partial {jF : Int} {S : Surface I.s} (h : SurfaceAt I jF S) (hl : I.s.lasym = false) (j0 : 1 ≤ jF) (j1 : jF < I.ns) {p k : Int}
    (hp : (p = 0 ∧ k = 0) ∨ (p = 1 ∧ 2 * k = I.s.nZeta))
    (hD : ∀ θ φ, |S.R θ φ| < I.dblMax) (hz : ∃ q ∈ S.cross k, q.2 ≠ 0) (axis : ℝ → ℝ) (hax : ∀ k, 0 ≤ k → k < I.s.nZeta → I.R.gridF .r_e (k * I.s.nThetaEff) = axis (phiGrid I.s k))
    {xmin xmax zmin zmax : ℝ} (hx1 : IsLeast (Prod.fst '' S.cross k) xmin) (hx2 : IsGreatest (Prod.fst '' S.cross k) xmax) (hx : xmin < xmax) (hz1 : IsLeast (Prod.snd '' S.cross k) zmin)
    (hz2 : IsGreatest (Prod.snd '' S.cross k) zmax) (hin : xmin ≤ axis (phiGrid I.s k) ∧ axis (phiGrid I.s k) ≤ xmax) :
    I.ygeo (p * I.ns + jF) ≤ (xmax - xmin) / 2 ∧ 0 ≤ I.yinden (p * I.ns + jF) ∧ I.yinden (p * I.ns + jF) ≤ 1 ∧ 0 < I.yellip (p * I.ns + jF) ∧ |I.ytrian (p * I.ns + jF)| ≤ 1 ∧
    |I.yshift (p * I.ns + jF)| ≤ 1 := by
  obtain ⟨q1, q2, q3, q4, q5⟩ := nZnT_eq hs
  have k0 : 0 ≤ k := by omega
  have k1 : k < I.s.nZeta := by omega
  obtain ⟨g1, g2, g3, ⟨top, ht, g4⟩, g5⟩ := C96_shape_partial hs h hl j0 j1 hp hD hz axis hax hx1 hx2 hx hz1 hz2
  have hN : (I.s.nThetaEven : ℝ) ≠ 0 := by exact_mod_cast (by omega : I.s.nThetaEven ≠ 0)
  have mem (l : Int) (l0 : 0 ≤ l) (l1 : l < I.s.nThetaEven) : S.R (thetaGrid I.s l) (phiGrid I.s k) ∈ Prod.fst '' S.cross k := ⟨_, ⟨l, l0, l1, rfl⟩, rfl⟩
  have e0 : thetaGrid I.s 0 = 0 := by unfold thetaGrid; simp
  have eπ : thetaGrid I.s (I.s.nThetaReduced - 1) = Real.pi := by
    have e : (I.s.nThetaEven : ℝ) = 2 * (I.s.nThetaReduced - 1 : Int) := by exact_mod_cast (by omega : I.s.nThetaEven = 2 * (I.s.nThetaReduced - 1))
    unfold thetaGrid
    rw [div_eq_iff hN, e]; ring
  have m0 := mem 0 le_rfl (by omega)
  have mπ := mem (I.s.nThetaReduced - 1) (by omega) (by omega)
  rw [e0] at m0
  rw [eπ] at mπ
  have a1 := hx1.2 m0
  have a2 := hx2.2 m0
  have b1 := hx1.2 mπ
  have b2 := hx2.2 mπ
  have t1 := hx1.2 ⟨_, ht, rfl⟩
  have t2 := hx2.2 ⟨_, ht, rfl⟩
  simp only at t1 t2
  have w : 0 < xmax - xmin := by linarith
  have pos : zmin < zmax := by
    obtain ⟨q, hq, hne⟩ := hz
    obtain ⟨-, c2, -⟩ := cross_eq hs S hl k k0 k1 (by tauto)
    have z0 : (0 : ℝ) ∈ Prod.snd '' S.cross k := ⟨_, ⟨0, le_rfl, by omega, rfl⟩, c2⟩
    have u1 := hz1.2 z0
    have u2 := hz2.2 z0
    have u3 := hz1.2 ⟨q, hq, rfl⟩
    have u4 := hz2.2 ⟨q, hq, rfl⟩
    rcases lt_or_gt_of_ne hne with hlt | hgt
    · linarith
    · linarith
  refine ⟨?_, ?_, ?_, ?_, ?_, ?_⟩
  · rw [g1]; linarith
  · rw [g2]; exact div_nonneg (by linarith) w.le
  · rw [g2, div_le_one w]; linarith
  · rw [g3]; exact div_pos (by linarith) w
  · rw [g4, abs_div, abs_of_pos w, div_le_one w, abs_le]; constructor <;> linarith
  · rw [g5, abs_div, abs_of_pos w, div_le_one w, abs_le]; constructor <;> linarith [hin.1, hin.2]

end

/-- **C96** (no second plane): in axisymmetry the second plane is left at zero -/
theorem C96_axisymmetric (I : GeomIn) (hz : I.s.nZeta = 1) {jF : Int} (j0 : 1 ≤ jF) (j1 : jF < I.ns) : I.ygeo (1 * I.ns + jF) = 0 ∧ I.yinden (1 * I.ns + jF) = 0 ∧ I.yellip (1 * I.ns + jF) = 0 ∧
    I.ytrian (1 * I.ns + jF) = 0 ∧ I.yshift (1 * I.ns + jF) = 0 := by
  unfold GeomIn.ygeo GeomIn.yinden GeomIn.yellip GeomIn.ytrian GeomIn.yshift
  refine ⟨?_, ?_, ?_, ?_, ?_⟩ <;> rw [column_eq (by omega) _ (by norm_num) (by norm_num) j0 j1, if_neg (by norm_num), if_pos hz]

/-- **C96** (local current ratios): on every surface inside, the printed ratios times the perpendicular current are the parallel current and its Pfirsch-Schlüter part; the second is between 0 and the
    first -/
theorem C96_parallel (I : GeomIn) (eps : ℝ) {j : Int} (j0 : 1 ≤ j) (j1 : j < I.ns - 1) (hB : 0 < I.bdotb j) (hC : I.jdotb j ^ 2 ≤ I.jpar2 j * I.bdotb j) (hp : 0 < I.jperp2 j) :
    I.loc_jpar_perp eps j * I.jperp2 j = I.jpar2 j ∧ I.loc_jparPS_perp eps j * I.jperp2 j = I.jpar2 j - I.jdotb j ^ 2 / I.bdotb j ∧ 0 ≤ I.loc_jparPS_perp eps j ∧
    I.loc_jparPS_perp eps j ≤ I.loc_jpar_perp eps j := by
  have hPS : I.jPS2 j = I.jpar2 j - I.jdotb j ^ 2 / I.bdotb j := by unfold GeomIn.jPS2; rw [TableIn.fill_eq, if_pos ⟨j0, j1⟩, sq]
  have a : I.loc_jpar_perp eps j = I.jpar2 j / I.jperp2 j := by
    unfold GeomIn.loc_jpar_perp; rw [TableIn.fill_eq, if_pos ⟨j0, by omega⟩]; unfold GeomIn.jperp2'; rw [if_pos hp.ne']
  have b : I.loc_jparPS_perp eps j = I.jPS2 j / I.jperp2 j := by
    unfold GeomIn.loc_jparPS_perp; rw [TableIn.fill_eq, if_pos ⟨j0, by omega⟩, if_pos j1]; unfold GeomIn.jperp2'; rw [if_pos hp.ne']
  have n0 : I.jdotb j ^ 2 / I.bdotb j ≤ I.jpar2 j := (div_le_iff₀ hB).2 hC
  have n1 : 0 ≤ I.jdotb j ^ 2 / I.bdotb j := div_nonneg (sq_nonneg _) hB.le
  refine ⟨by rw [a, div_mul_cancel₀ _ hp.ne'], by rw [b, div_mul_cancel₀ _ hp.ne', hPS], ?_, ?_⟩
  · rw [b, hPS]; exact div_nonneg (by linarith) hp.le
  · rw [a, b, hPS]; exact div_le_div_of_nonneg_right (by linarith) hp.le

/-- **C96** (no perpendicular current): without perpendicular current the printed ratios are finite, the parallel currents over `DBL_EPSILON` -/
theorem C96_no_current (I : GeomIn) (eps : ℝ) {j : Int} (j0 : 1 ≤ j) (j1 : j < I.ns) (hp : I.jperp2 j = 0) : I.loc_jpar_perp eps j = I.jpar2 j / eps := by
  unfold GeomIn.loc_jpar_perp; rw [TableIn.fill_eq, if_pos ⟨j0, j1⟩]; unfold GeomIn.jperp2'; rw [if_neg (not_not.2 hp)]

/-! ## the hypotheses are met, and the cases in which the scan is wrong -/

/-- the last surface of `sampled` -/
theorem sampled_at {s : Sizes.Sizes} (S : Surface s) : SurfaceAt (sampled S) 2 S := by
  have h := sampled_samples S
  constructor
  · intro k l k0 k1 l0 l1
    have := h.raw_r k l k0 k1 l0 l1
    have z : (sampled S).R.gridF .r_o (2 * s.nZnT + (k * s.nThetaEff + l)) = 0 := by simp only [sampled]; split_ifs <;> rfl
    rw [← this]
    show _ + _ * (sampled S).R.gridF .r_o (2 * s.nZnT + (k * s.nThetaEff + l)) = _ + (sampled S).R.gridF .r_o (2 * s.nZnT + (k * s.nThetaEff + l))
    rw [z, mul_zero]; rfl
  · intro k l k0 k1 l0 l1
    have := h.raw_z k l k0 k1 l0 l1
    have z : (sampled S).R.gridF .z_o (2 * s.nZnT + (k * s.nThetaEff + l)) = 0 := by simp only [sampled]; split_ifs <;> rfl
    rw [← this]
    show _ + _ * (sampled S).R.gridF .z_o (2 * s.nZnT + (k * s.nThetaEff + l)) = _ + (sampled S).R.gridF .z_o (2 * s.nZnT + (k * s.nThetaEff + l))
    rw [z, mul_zero]; rfl

/-- the last surface of `sampled`, with an axis at `R = 10` -/
noncomputable def withAxis {s : Sizes.Sizes} (S : Surface s) : GeomIn :=
  { sampled S with R := { (sampled S).R with gridF := fun c i => if i < 2 * s.nZnT then (match c with | .r_e => 10 | _ => 0) else (sampled S).R.gridF c i } }

theorem withAxis_at {s : Sizes.Sizes} (S : Surface s) : SurfaceAt (withAxis S) 2 S := by
  have h := sampled_at S
  have e (c : GridF) (k l : Int) (k0 : 0 ≤ k) (l0 : 0 ≤ l) (l1 : l < s.nThetaEff) : (withAxis S).R.gridF c (2 * s.nZnT + (k * s.nThetaEff + l)) =
      (sampled S).R.gridF c (2 * s.nZnT + (k * s.nThetaEff + l)) := by
    have := mul_nonneg k0 (by omega : 0 ≤ s.nThetaEff)
    show (if _ < _ then _ else _) = _
    rw [if_neg (by omega)]
  constructor
  · intro k l k0 k1 l0 l1
    refine Eq.trans ?_ (h.r k l k0 k1 l0 l1)
    exact congrArg₂ (fun x y => x + _ * y) (e .r_e k l k0 l0 l1) (e .r_o k l k0 l0 l1)
  · intro k l k0 k1 l0 l1
    refine Eq.trans ?_ (h.z k l k0 k1 l0 l1)
    exact congrArg₂ (fun x y => x + _ * y) (e .z_e k l k0 l0 l1) (e .z_o k l k0 l0 l1)

/-- the circular torus meets the hypotheses of `C96_extent_partial`, `C96_shape_partial` and `C96_bounds_partial` -/
example : ∃ (I : GeomIn) (S : Surface I.s), Sizes.mk false 1 2 0 0 0 2 0 = .ok I.s ∧ SurfaceAt I 2 S ∧ I.s.lasym = false ∧ (2 : Int) < I.ns ∧ (∀ θ φ, |S.R θ φ| < I.dblMax) ∧
    (∃ q ∈ S.cross 0, q.2 ≠ 0) ∧ (∃ p ∈ S.cross 0, ∃ q ∈ S.cross 0, p.1 ≠ q.1) ∧ (∀ k, 0 ≤ k → k < I.s.nZeta → I.R.gridF .r_e (k * I.s.nThetaEff) = 10) ∧
    ∃ xmin xmax zmin zmax, IsLeast (Prod.fst '' S.cross 0) xmin ∧ IsGreatest (Prod.fst '' S.cross 0) xmax ∧ xmin < xmax ∧ IsLeast (Prod.snd '' S.cross 0) zmin ∧
      IsGreatest (Prod.snd '' S.cross 0) zmax ∧ xmin ≤ 10 ∧ 10 ≤ xmax := by
  obtain ⟨s, hs, h1, h2, h3, h4, h5⟩ := sizes2 false
  obtain ⟨q1, q2, q3, q4, q5⟩ := nZnT_eq hs
  set S := torus s (by omega) (by omega) 10 1 0 1 0 (by omega) (by omega) 0 (fun _ => rfl) with hS
  have hR (θ φ : ℝ) : S.R θ φ = 10 + Real.cos θ := by rw [hS]; simp [torus]
  have hZ (θ φ : ℝ) : S.Z θ φ = Real.sin θ := by rw [hS]; simp [torus]
  have hl : s.nThetaEven = 10 := by omega
  have hD (θ φ : ℝ) : |S.R θ φ| < (withAxis S).dblMax := by
    rw [hR]
    have := Real.neg_one_le_cos θ
    have := Real.cos_le_one θ
    show _ < (1000 : ℝ)
    rw [abs_lt]; constructor <;> linarith
  have c0 : thetaGrid s 0 = 0 := by unfold thetaGrid; simp
  have c5 : thetaGrid s 5 = Real.pi := by unfold thetaGrid; rw [hl]; push_cast; ring
  have x0 : (11 : ℝ) ∈ Prod.fst '' S.cross 0 := ⟨_, ⟨0, by norm_num, by omega, rfl⟩, by simp only [hR, c0, Real.cos_zero]; norm_num⟩
  have x5 : (9 : ℝ) ∈ Prod.fst '' S.cross 0 := ⟨_, ⟨5, by norm_num, by omega, rfl⟩, by simp only [hR, c5, Real.cos_pi]; norm_num⟩
  have hx : ∃ p ∈ S.cross 0, ∃ q ∈ S.cross 0, p.1 ≠ q.1 := by
    obtain ⟨p, hp, e⟩ := x0
    obtain ⟨q, hq, f⟩ := x5
    exact ⟨p, hp, q, hq, by rw [e, f]; norm_num⟩
  have hz : ∃ q ∈ S.cross 0, q.2 ≠ 0 := by
    refine ⟨_, ⟨1, by norm_num, by omega, rfl⟩, ?_⟩
    simp only [hZ]
    refine (Real.sin_pos_of_pos_of_lt_pi ?_ ?_).ne'
    · unfold thetaGrid; rw [hl]; have := Real.pi_pos; push_cast; positivity
    · unfold thetaGrid; rw [hl]; have := Real.pi_pos; push_cast; rw [div_lt_iff₀ (by norm_num)]; linarith
  have hz0 : (0 : Int) < s.nZeta := by omega
  obtain ⟨e1, e2, e3, e4, e5⟩ := C96_extent_partial (I := withAxis S) hs (withAxis_at S) h1 0 le_rfl hz0 (Or.inl rfl) hD hx hz
  have a1 := e2.2 x5
  have a2 := e1.2 x0
  refine ⟨withAxis S, S, hs, withAxis_at S, h1, by show (2 : Int) < 3; norm_num, hD, hz, hx, fun k k0 k1 => ?_, _, _, _, _, e2, e1, by linarith, e4, e3, by linarith, by linarith⟩
  have hk : k = 0 := by have : k < s.nZeta := k1; omega
  rw [hk, zero_mul]
  show (if (0 : Int) < 2 * s.nZnT then (10 : ℝ) else _) = 10
  rw [if_pos]
  have := (eff_pos (I := sampled S) hs).1
  have : 0 < s.nThetaEff := this
  rw [q1]; nlinarith

namespace Ext
/-- the scan never lowers `maximum_z` and never raises `minimum_z` -/
theorem visit_mono (e : Ext) (r z : ℝ) : e.maximum_z ≤ (e.visit r z).maximum_z ∧ (e.visit r z).minimum_z ≤ e.minimum_z := by
  obtain ⟨v1, v2, _⟩ := e.visit_z r z
  rw [v1, v2]
  constructor
  · split_ifs with h
    · exact h.trans (le_abs_self z)
    · exact le_rfl
  · split_ifs with h h'
    · exact le_rfl
    · exact h'
    · exact le_rfl

theorem pass_mono {n m : Int} (hn : m ≤ n) (r z : Int → ℝ) (e0 : Ext) : e0.maximum_z ≤ (forRange m n (fun l e => e.visit (r l) (z l)) e0).maximum_z ∧
    (forRange m n (fun l e => e.visit (r l) (z l)) e0).minimum_z ≤ e0.minimum_z :=
  forRange_inv hn (fun l e => e.visit (r l) (z l)) e0 (fun _ (e : Ext) => e0.maximum_z ≤ e.maximum_z ∧ e.minimum_z ≤ e0.minimum_z) ⟨le_rfl, le_rfl⟩
    fun _ e _ _ ⟨a, b⟩ => ⟨a.trans (visit_mono e _ _).1, (visit_mono e _ _).2.trans b⟩
end Ext

/-- after the scan, `maximum_z` is at least the absolute value of the `Z` of the first point -/
theorem scan_first (I : GeomIn) (hn : 1 ≤ I.s.nThetaReduced) (jF k : Int) (hD : -I.dblMax ≤ I.zAt jF k 0) : |I.zAt jF k 0| ≤ (I.scan jF k).maximum_z := by
  unfold GeomIn.scan
  rw [forRange_two]
  simp only [show ((0 : Int) = 1) = False by simp, if_false, if_true]
  refine le_trans ?_ (Ext.pass_mono (by omega) (fun l => I.rAt jF ((I.s.nZeta - k).tmod I.s.nZeta) l) (fun l => -1 * I.zAt jF ((I.s.nZeta - k).tmod I.s.nZeta) l) _).1
  rw [forRange_cons (by omega)]
  refine le_trans ?_ (Ext.pass_mono (by omega) (fun l => I.rAt jF k l) (fun l => 1 * I.zAt jF k l) _).1
  rw [(Ext.visit_z _ _ _).1, one_mul, if_pos hD]

/-- **C96** (extent fails): without the symmetry, `Z = 10 + sin θ`: all points have `Z ≥ 9`, but the lowest point of the scan is at `-10` or below, since the second pass changes the sign of `Z`; the
    printed elongation of this circle is therefore more than 9 times too large -/
theorem C96_extent_fails : ∃ (I : GeomIn) (S : Surface I.s), Sizes.mk true 1 2 0 0 0 2 0 = .ok I.s ∧ SurfaceAt I 2 S ∧ (∀ q ∈ S.cross 0, 9 ≤ q.2 ∧ q.2 ≤ 11) ∧
    10 ≤ (I.scan 2 0).maximum_z ∧ (I.scan 2 0).minimum_z ≤ -10 := by
  obtain ⟨s, hs, h1, h2, h3, h4, h5⟩ := sizes2 true
  obtain ⟨q1, q2, q3, q4, q5⟩ := nZnT_eq hs
  set S := torus s (by omega) (by omega) 10 1 10 1 0 (by omega) (by omega) 0 (fun h => by rw [h1] at h; cases h) with hS
  have hZ (θ φ : ℝ) : S.Z θ φ = 10 + Real.sin θ := by rw [hS]; simp [torus]
  have c0 : thetaGrid s 0 = 0 := by unfold thetaGrid; simp
  have hE := (eff_pos (I := sampled S) hs).1
  have z0 : (sampled S).zAt 2 0 0 = 10 := by
    rw [(at_eq (I := sampled S) hs (sampled_at S) le_rfl (by show (0 : Int) < s.nZeta; omega) le_rfl hE).2, hZ]
    show 10 + Real.sin (thetaGrid s 0) = 10
    rw [c0, Real.sin_zero, add_zero]
  have hn : 1 ≤ (sampled S).s.nThetaReduced := by show 1 ≤ s.nThetaReduced; omega
  have hmax := scan_first (sampled S) hn 2 0 (by rw [z0]; show (-1000 : ℝ) ≤ 10; norm_num)
  rw [z0] at hmax
  refine ⟨sampled S, S, hs, sampled_at S, ?_, by simpa using hmax, ?_⟩
  · rintro _ ⟨l, l0, l1, rfl⟩
    simp only [hZ]
    have := Real.neg_one_le_sin (thetaGrid s l)
    have := Real.sin_le_one (thetaGrid s l)
    constructor
    · show 9 ≤ 10 + Real.sin (thetaGrid s l); linarith
    · show 10 + Real.sin (thetaGrid s l) ≤ 11; linarith
  · unfold GeomIn.scan
    rw [forRange_two]
    simp only [show ((0 : Int) = 1) = False by simp, if_false, if_true, sub_zero, Int.tmod_self]
    set e1 := forRange 0 (sampled S).s.nThetaReduced (fun l e => Ext.visit e ((sampled S).rAt 2 0 l) (1 * (sampled S).zAt 2 0 l)) _ with he1
    have m1 : (10 : ℝ) ≤ e1.maximum_z := by
      rw [he1, forRange_cons (by omega)]
      refine le_trans ?_ (Ext.pass_mono (by omega) (fun l => (sampled S).rAt 2 0 l) (fun l => 1 * (sampled S).zAt 2 0 l) _).1
      rw [(Ext.visit_z _ _ _).1, one_mul, z0, if_pos (by show (10 : ℝ) ≥ -1000; norm_num)]
      norm_num
    rw [forRange_cons (by omega)]
    refine (Ext.pass_mono (by omega) (fun l => (sampled S).rAt 2 0 l) (fun l => -1 * (sampled S).zAt 2 0 l) _).2.trans ?_
    rw [(Ext.visit_z _ _ _).2.1, z0, if_neg (by rw [ge_iff_le, not_le]; linarith)]
    split_ifs with h
    · norm_num
    · linarith

/-- seven toroidal points -/
theorem sizes7 : ∃ s, Sizes.mk false 1 2 1 0 7 2 1 = .ok s ∧ s.lasym = false ∧ s.nfp = 1 ∧ s.mpol = 2 ∧ s.ntor = 1 ∧ s.nZeta = 7 ∧ s.nThetaReduced = 6 := ⟨_, rfl, rfl, rfl, rfl, rfl, rfl, rfl⟩

/-- **C96** (extent fails): with an odd number of toroidal points the second plane, `nZeta / 2`, is no plane of symmetry; the scan starts with `maximum_z = |Z|` of the first point.  For
    `Z = sin θ - 42 sin φ`, which has the symmetry, all points of this plane have `Z ≤ -11` but `maximum_z` is at least 12. -/
theorem C96_plane_fails : ∃ (I : GeomIn) (S : Surface I.s), Sizes.mk false 1 2 1 0 7 2 1 = .ok I.s ∧ SurfaceAt I 2 S ∧ I.s.nZeta.tdiv 2 = 3 ∧ (∀ q ∈ S.cross 3, q.2 ≤ -11) ∧ 12 ≤ (I.scan 2 3).maximum_z := by
  obtain ⟨s, hs, h1, hf, h2, h3, h4, h5⟩ := sizes7
  let S : Surface s := {
    R := fun θ _ => 10 * Real.cos ((0 : Int) * θ) + 1 * Real.cos ((1 : Int) * θ)
    Z := fun θ φ => 1 * Real.sin ((1 : Int) * θ) + 42 * Real.sin ((0 : Int) * θ - (1 : Int) * (s.nfp * φ))
    hR := .add _ _ (.smul _ _ (trig_cos 0 (by simp; omega) (by omega))) (.smul _ _ (trig_cos 1 (by simp; omega) (by omega)))
    hZ := .add _ _ (.smul _ _ (trig_sin 1 (by simp; omega) (by omega))) (.smul _ _ (.sin 0 1 (by simp; omega) (by simp; omega)))
    sym := fun _ θ φ => by
      refine ⟨by simp only [mul_neg, Real.cos_neg], ?_⟩
      rw [show ((0 : Int) : ℝ) * -θ - (1 : Int) * (s.nfp * -φ) = -(((0 : Int) : ℝ) * θ - (1 : Int) * (s.nfp * φ)) by ring]
      simp only [mul_neg, Real.sin_neg]
      ring }
  have hZ (θ φ : ℝ) : S.Z θ φ = Real.sin θ - 42 * Real.sin φ := by
    show 1 * Real.sin ((1 : Int) * θ) + 42 * Real.sin ((0 : Int) * θ - (1 : Int) * (s.nfp * φ)) = _
    rw [hf]; push_cast
    rw [one_mul, one_mul, zero_mul, zero_sub, one_mul, one_mul, Real.sin_neg]; ring
  have c0 : thetaGrid s 0 = 0 := by unfold thetaGrid; simp
  have p1 : 12 ≤ 42 * Real.sin (phiGrid s 3) := by
    have : phiGrid s 3 = Real.pi - Real.pi / 7 := by unfold phiGrid zetaGrid; rw [h4, hf]; push_cast; ring
    rw [this, Real.sin_pi_sub]
    have hp := Real.pi_pos
    have := Real.mul_le_sin (x := Real.pi / 7) (by positivity) (by linarith)
    rw [show 2 / Real.pi * (Real.pi / 7) = 2 / 7 by field_simp] at this
    linarith
  have p2 := Real.sin_le_one (phiGrid s 3)
  have hE := (eff_pos (I := sampled S) hs).1
  have z0 : (sampled S).zAt 2 3 0 = -(42 * Real.sin (phiGrid s 3)) := by
    rw [(at_eq (I := sampled S) hs (sampled_at S) (by norm_num) (by show (3 : Int) < s.nZeta; omega) le_rfl hE).2, hZ]
    show Real.sin (thetaGrid s 0) - 42 * Real.sin (phiGrid s 3) = _
    rw [c0, Real.sin_zero]; ring
  have hn : 1 ≤ (sampled S).s.nThetaReduced := by show 1 ≤ s.nThetaReduced; omega
  have hmax := scan_first (sampled S) hn 2 3 (by rw [z0]; show (-1000 : ℝ) ≤ _; linarith)
  rw [z0, abs_neg, abs_of_pos (by linarith)] at hmax
  refine ⟨sampled S, S, hs, sampled_at S, by show s.nZeta.tdiv 2 = 3; rw [h4]; rfl, ?_, by linarith⟩
  rintro _ ⟨l, l0, l1, rfl⟩
  simp only [hZ]
  have := Real.sin_le_one (thetaGrid s l)
  show Real.sin (thetaGrid s l) - 42 * Real.sin (phiGrid s 3) ≤ -11
  linarith

/-- the hypotheses of `C96_parallel` -/
example : ∃ I : GeomIn, (1 : Int) < I.ns - 1 ∧ 0 < I.bdotb 1 ∧ I.jdotb 1 ^ 2 ≤ I.jpar2 1 * I.bdotb 1 ∧ 0 < I.jperp2 1 := by
  obtain ⟨s, hs, h1, h2, h3, h4, h5⟩ := sizes2 false
  exact ⟨{ sampled (torus s (by omega) (by omega) 10 1 0 1 0 (by omega) (by omega) 0 (fun _ => rfl)) with bdotb := fun _ => 2, jdotb := fun _ => 1, jpar2 := fun _ => 3, jperp2 := fun _ => 1 },
    by show (1 : Int) < 3 - 1; norm_num, by norm_num, by norm_num, by norm_num⟩

end Verif.Output
