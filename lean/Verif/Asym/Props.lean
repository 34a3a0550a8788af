import Verif.Asym.Fold

/-!
# C68, C69: transforms of a run without stellarator symmetry
-/
namespace Verif.Asym
open Verif Verif.Fourier Partition Finset Transform

section
variable {c : Ctx} {nfp mpol ntor ntheta nzeta mg ng : Int}

theorem full_of_mk (hs : Sizes.mk true nfp mpol ntor ntheta nzeta mg ng = .ok c.s) : Full c := by
  obtain ⟨_, _, _, ⟨_, d2, d3, _⟩, _⟩ := (Sizes.C07_sizes true nfp mpol ntor ntheta nzeta mg ng).2 c.s hs
  exact ⟨goodP_of_mk hs, by rw [d2]; simp, d3⟩

theorem lthreed_of_mk {lasym : Bool} {s : Sizes.Sizes} (hs : Sizes.mk lasym nfp mpol ntor ntheta nzeta mg ng = .ok s) (hn : 1 ≤ ntor) :
    s.lthreed = true := by
  unfold Sizes.mk at hs
  split at hs
  · cases hs
  split at hs
  · cases hs
  split at hs
  · cases hs
  injection hs with hs
  rw [← hs]
  simp
  omega

theorem wInt_full (hs : Sizes.mk true nfp mpol ntor ntheta nzeta mg ng = .ok c.s) (l : Int) : Sizes.wInt c.s l = fw c := by
  have h1 := ((Sizes.C07_sizes true nfp mpol ntor ntheta nzeta mg ng).2 c.s hs).1.1
  unfold Sizes.wInt fw
  rw [h1]
  simp

theorem geo_ext {g g' : Kernels.Geo} (h : ∀ a e, get g a e = get g' a e) : g = g' := by
  have := fun a => (⟨h a true, h a false⟩ : _ ∧ _)
  have r1 := this .r1
  have ru := this .ru
  have rv := this .rv
  have z1 := this .z1
  have zu := this .zu
  have zv := this .zv
  have lu := this .lu
  have lv := this .lv
  simp only [get] at r1 ru rv z1 zu zv lu lv
  ext
  · exact r1.1
  · exact r1.2
  · exact ru.1
  · exact ru.2
  · exact z1.1
  · exact z1.2
  · exact zu.1
  · exact zu.2
  · exact lu.1
  · exact lu.2
  · exact rv.1
  · exact rv.2
  · exact zv.1
  · exact zv.2
  · exact lv.1
  · exact lv.2

/-! ## C68: geometry -/

/-- the geometry arrays of a thread as the vector of points that the force kernels read -/
noncomputable def geoVec (c : Ctx) (x : Coef → Int → ℝ) (xa : CoefA → Int → ℝ) : Vec Kernels.Geo where
  size := (c.r.nsMaxF1 - c.r.nsMinF1) * c.s.nZnT
  val := fun i =>
    let g := fun a e => geometryFromFourier c x xa (.geo a e) i
    { r1_e := g .r1 true, r1_o := g .r1 false, ru_e := g .ru true, ru_o := g .ru false, rv_e := g .rv true, rv_o := g .rv false
      z1_e := g .z1 true, z1_o := g .z1 false, zu_e := g .zu true, zu_o := g .zu false, zv_e := g .zv true, zv_o := g .zv false
      lu_e := g .lu true, lu_o := g .lu false, lv_e := g .lv true, lv_o := g .lv false }

theorem geoVec_get (c : Ctx) (x : Coef → Int → ℝ) (xa : CoefA → Int → ℝ) (i : Int) (a : GArr) (e : Bool) :
    get ((geoVec c x xa).val i) a e = geometryFromFourier c x xa (.geo a e) i := by
  cases a <;> cases e <;> rfl

theorem parityOf_sq (a : GArr) : parity a * parity a = 1 := by cases a <;> simp [parity]

/-- a value on the whole interval from its parts on the reduced one -/
theorem target_eq {C : Type} (h : Full c) {σ : ℝ} (hσ : σ * σ = 1) {j0 j k l : Int} (hk : 0 ≤ k ∧ k < c.s.nZeta) (hl : 0 ≤ l ∧ l < c.s.nThetaEven)
    (sgn : C → ℝ) (A : C) (hA : sgn A = σ) (ga g : C → Int → ℝ) (Gs Ga : Int → Int → ℝ)
    (h1 : ∀ k l, 0 ≤ k → k < c.s.nZeta → 0 ≤ l → l < c.s.nThetaReduced → g A (cell c j0 j k l) = Gs k l ∧ ga A (cell c j0 j k l) = Ga k l)
    (hs : ∀ k l, 0 ≤ k → k < c.s.nZeta → 0 ≤ l → l < c.s.nThetaEven → Gs (kRev c k) (lRev c l) = σ * Gs k l)
    (ha : ∀ k l, 0 ≤ k → k < c.s.nZeta → 0 ≤ l → l < c.s.nThetaEven → Ga (kRev c k) (lRev c l) = -σ * Ga k l) :
    target c j0 sgn ga g A j k l = Gs k l + Ga k l := by
  have hred := h.red
  have hev := h.even
  unfold target
  split
  · rename_i hlt
    rw [(h1 k l hk.1 hk.2 hl.1 hlt).1, (h1 k l hk.1 hk.2 hl.1 hlt).2]
  · rename_i hlt
    have hr := kRev_range h hk
    have e := lRev_pos h (l := l) (by omega) hl.2
    obtain ⟨q1, q2⟩ := h1 (kRev c k) (c.s.nThetaEven - l) hr.1 hr.2 (by omega) (by omega)
    rw [q1, q2, ← e, hs k l hk.1 hk.2 hl.1 hl.2, ha k l hk.1 hk.2 hl.1 hl.2, hA]
    linear_combination (Gs k l + Ga k l) * hσ

/-- **C68**, geometry: if the coefficient arrays of a thread hold the coefficients `A` and `B` of its surfaces, then after
    both transforms and `symrzl` its geometry arrays hold, at every point of the full poloidal interval, the values and the
    derivatives of the surfaces that `A` and `B` describe -/
theorem C68_geometry (hs : Sizes.mk true nfp mpol ntor ntheta nzeta mg ng = .ok c.s) (hn : 1 ≤ ntor)
    (A : Coef → Int → Int → Int → ℝ) (B : CoefA → Int → Int → Int → ℝ) (x : Coef → Int → ℝ) (xa : CoefA → Int → ℝ)
    (h0 : 0 ≤ c.r.nsMinF1) (hr : c.r.nsMinF ≤ c.r.nsMaxFIncludingLcfs)
    (hx : ∀ a j m n, c.r.nsMinF1 ≤ j → j < c.r.nsMaxF1 → 0 ≤ m → m < mpol → 0 ≤ n → n ≤ ntor →
      x a (((j - c.r.nsMinF1) * mpol + m) * (ntor + 1) + n) = A a j m n)
    (hxa : ∀ a j m n, c.r.nsMinF1 ≤ j → j < c.r.nsMaxF1 → 0 ≤ m → m < mpol → 0 ≤ n → n ≤ ntor →
      xa a (((j - c.r.nsMinF1) * mpol + m) * (ntor + 1) + n) = B a j m n) :
    Kernels.Holds (geoVec c x xa) c.r.nsMinF1 c.r.nsMaxF1 c.s.nZnT (Spec.geo c.s A B) := by
  have h := full_of_mk hs
  have h3 := lthreed_of_mk hs hn
  obtain ⟨⟨a1, a2, a3, a4⟩, _⟩ := (Sizes.C07_sizes true nfp mpol ntor ntheta nzeta mg ng).2 c.s hs
  have hpos : 0 < c.s.nThetaEff := by have := h.red; have := h.eff; omega
  refine ⟨rfl, fun j kl hj0 hj1 hk0 hk1 => ?_⟩
  have hk : 0 ≤ kl / c.s.nThetaEff ∧ kl / c.s.nThetaEff < c.s.nZeta :=
    ⟨Int.ediv_nonneg hk0 hpos.le, Int.ediv_lt_of_lt_mul hpos (by rw [← h.znt]; exact hk1)⟩
  have hl : 0 ≤ kl % c.s.nThetaEff ∧ kl % c.s.nThetaEff < c.s.nThetaEven :=
    ⟨Int.emod_nonneg _ hpos.ne', by rw [← h.full]; exact Int.emod_lt_of_pos _ hpos⟩
  have ei : (j - c.r.nsMinF1) * c.s.nZnT + kl = cell c c.r.nsMinF1 j (kl / c.s.nThetaEff) (kl % c.s.nThetaEff) := by
    unfold cell
    rw [mul_comm (kl / c.s.nThetaEff), add_assoc, Int.mul_ediv_add_emod]
  refine geo_ext fun a e => ?_
  rw [geoVec_get, ei]
  unfold Spec.geo
  rw [point_split]
  unfold geometryFromFourier
  rw [(symrzl_eq h h3 _ _ (by omega) hr hk hl).1 a e j hj0 hj1]
  refine target_eq (C := Arr) h (parityOf_sq a) hk hl _ _ rfl _ _ (fun k l => get (Transform.Spec.geoPoint c.s A j k l) a e)
    (fun k l => get (antiPoint c.s B j k l) a e) ?_ (fun k l k0 k1 l0 l1 => sym_reflect h A j ⟨k0, k1⟩ ⟨l0, l1⟩ a e)
    (fun k l k0 k1 l0 l1 => anti_reflect h B j ⟨k0, k1⟩ ⟨l0, l1⟩ a e)
  intro k l k0 k1 l0 l1
  rw [cell_eq h, geo_apply x a e ⟨hj0, hj1⟩ (by omega) ⟨k0, k1⟩ ⟨l0, l1⟩ h.eff,
    geoA_apply xa a e ⟨hj0, hj1⟩ (by omega) ⟨k0, k1⟩ ⟨l0, l1⟩ h.eff,
    ← sums_get h.toGoodP A (by omega) ⟨k0, k1⟩ ⟨l0, l1⟩, ← sumsA_get h.toGoodP B (by omega) ⟨k0, k1⟩ ⟨l0, l1⟩]
  constructor <;>
  · refine Finset.sum_congr rfl fun m hm => Finset.sum_congr rfl fun n hn => ?_
    have hm' := Finset.mem_Ico.1 ((mode_mem e (by omega)).1 hm).1
    have hn' := Finset.mem_Ico.1 hn
    congr 2
    funext a
    unfold idxMn
    rw [a3, a4]
    first
      | exact hx a j m n hj0 hj1 hm'.1 (by omega) hn'.1 (by omega)
      | exact hxa a j m n hj0 hj1 hm'.1 (by omega) hn'.1 (by omega)

theorem gVal_scale (a : GArr) (t : ℝ) (X : Coef → ℝ) (y : TorEntry) (p : PolEntry) :
    gVal a (torTerm (fun a => t * X a) y) p = t * gVal a (torTerm X y) p := by
  cases a <;> simp only [gVal, torTerm] <;> ring

theorem gValA_scale (a : GArr) (t : ℝ) (X : CoefA → ℝ) (y : TorEntry) (p : PolEntry) :
    gValA a (torTermA (fun a => t * X a) y) p = t * gValA a (torTermA X y) p := by
  cases a <;> simp only [gValA, torTermA] <;> ring

/-- **C68**, constraint arrays: on the full interval as well; every poloidal mode weighted with `xmpq`, odd modes times √s -/
theorem C68_constraint (hs : Sizes.mk true nfp mpol ntor ntheta nzeta mg ng = .ok c.s) (hn : 1 ≤ ntor)
    (A : Coef → Int → Int → Int → ℝ) (B : CoefA → Int → Int → Int → ℝ) (x : Coef → Int → ℝ) (xa : CoefA → Int → ℝ)
    (h0 : 0 ≤ c.r.nsMinF1) (hr : c.r.nsMinF1 ≤ c.r.nsMaxF1)
    (hx : ∀ a j m n, c.r.nsMinF1 ≤ j → j < c.r.nsMaxF1 → 0 ≤ m → m < mpol → 0 ≤ n → n ≤ ntor →
      x a (((j - c.r.nsMinF1) * mpol + m) * (ntor + 1) + n) = A a j m n)
    (hxa : ∀ a j m n, c.r.nsMinF1 ≤ j → j < c.r.nsMaxF1 → 0 ≤ m → m < mpol → 0 ≤ n → n ≤ ntor →
      xa a (((j - c.r.nsMinF1) * mpol + m) * (ntor + 1) + n) = B a j m n)
    {j k l : Int} (hj : c.r.nsMinF1 ≤ j ∧ j < c.r.nsMaxF1) (hc : c.r.nsMinF ≤ j ∧ j < c.r.nsMaxFIncludingLcfs)
    (hk : 0 ≤ k ∧ k < c.s.nZeta) (hl : 0 ≤ l ∧ l < c.s.nThetaEven) :
    let q := Spec.geoPoint c.s (fun a j m n => c.xmpq m * A a j m n) (fun a j m n => c.xmpq m * B a j m n) j k l
    let g := fun a => geometryFromFourier c x xa a ((j - c.r.nsMinF) * c.s.nZnT + (k * c.s.nThetaEff + l))
    g .rCon = q.r1_e + c.sqrtSF (j - c.r.nsMinF1) * q.r1_o ∧ g .zCon = q.z1_e + c.sqrtSF (j - c.r.nsMinF1) * q.z1_o := by
  have h := full_of_mk hs
  have h3 := lthreed_of_mk hs hn
  obtain ⟨⟨a1, a2, a3, a4⟩, _⟩ := (Sizes.C07_sizes true nfp mpol ntor ntheta nzeta mg ng).2 c.s hs
  intro q g
  set A' : Coef → Int → Int → Int → ℝ := fun a j m n => c.xmpq m * A a j m n with hA'
  set B' : CoefA → Int → Int → Int → ℝ := fun a j m n => c.xmpq m * B a j m n with hB'
  have main : ∀ (D : Arr) (a : GArr), ((D = .rCon ∧ a = .r1) ∨ (D = .zCon ∧ a = .z1)) →
      g D = get q a true + c.sqrtSF (j - c.r.nsMinF1) * get q a false := by
    intro D a hD
    have hg : isGeo D = false := by rcases hD with ⟨rfl, _⟩ | ⟨rfl, _⟩ <;> rfl
    have hp : parityOf D = parity a := by rcases hD with ⟨rfl, rfl⟩ | ⟨rfl, rfl⟩ <;> rfl
    have e1 : g D = target c c.r.nsMinF parityOf (fourierToRealA c xa) (fourierToRealDft c x) D j k l := by
      show geometryFromFourier c x xa D _ = _
      unfold geometryFromFourier
      rw [← add_assoc]
      exact (symrzl_eq h h3 _ _ hr (by omega) hk hl).2 D hg j hc.1 hc.2
    rw [e1, target_eq (C := Arr) h (parityOf_sq a) hk hl _ _ hp _ _
      (fun k l => get (Transform.Spec.geoPoint c.s A' j k l) a true + c.sqrtSF (j - c.r.nsMinF1) * get (Transform.Spec.geoPoint c.s A' j k l) a false)
      (fun k l => get (antiPoint c.s B' j k l) a true + c.sqrtSF (j - c.r.nsMinF1) * get (antiPoint c.s B' j k l) a false)]
    · rw [show q = Spec.geoPoint c.s A' B' j k l from rfl, point_split, point_split]
      ring
    · intro k l k0 k1 l0 l1
      rw [cell_eq h, con_apply x hj hc (by omega) ⟨k0, k1⟩ ⟨l0, l1⟩ h.eff D a hD, conA_apply xa hj hc (by omega) ⟨k0, k1⟩ ⟨l0, l1⟩ h.eff D a hD]
      have s1 : ∀ e, ∑ m ∈ Transform.Spec.modes c.s.mpol j e, ∑ n ∈ Ico 0 (c.s.ntor + 1),
          c.xmpq m * gVal a (torTerm (fun a => x a (idxMn c c.r.nsMinF1 j m n)) (torAt c k n)) (polAt c m l) =
          get (Transform.Spec.geoPoint c.s A' j k l) a e := by
        intro e
        rw [← sums_get h.toGoodP A' (by omega) ⟨k0, k1⟩ ⟨l0, l1⟩]
        refine Finset.sum_congr rfl fun m hm => Finset.sum_congr rfl fun n hn => ?_
        have hm' := Finset.mem_Ico.1 ((mode_mem e (by omega)).1 hm).1
        have hn' := Finset.mem_Ico.1 hn
        rw [← gVal_scale]
        congr 2
        funext a
        unfold idxMn
        rw [a3, a4, hx a j m n hj.1 hj.2 hm'.1 (by omega) hn'.1 (by omega)]
      have s2 : ∀ e, ∑ m ∈ Transform.Spec.modes c.s.mpol j e, ∑ n ∈ Ico 0 (c.s.ntor + 1),
          c.xmpq m * gValA a (torTermA (fun a => xa a (idxMn c c.r.nsMinF1 j m n)) (torAt c k n)) (polAt c m l) =
          get (antiPoint c.s B' j k l) a e := by
        intro e
        rw [← sumsA_get h.toGoodP B' (by omega) ⟨k0, k1⟩ ⟨l0, l1⟩]
        refine Finset.sum_congr rfl fun m hm => Finset.sum_congr rfl fun n hn => ?_
        have hm' := Finset.mem_Ico.1 ((mode_mem e (by omega)).1 hm).1
        have hn' := Finset.mem_Ico.1 hn
        rw [← gValA_scale]
        congr 2
        funext a
        unfold idxMn
        rw [a3, a4, hxa a j m n hj.1 hj.2 hm'.1 (by omega) hn'.1 (by omega)]
      rw [s1, s1, s2, s2]
      exact ⟨rfl, rfl⟩
    · intro k l k0 k1 l0 l1
      rw [sym_reflect h A' j ⟨k0, k1⟩ ⟨l0, l1⟩, sym_reflect h A' j ⟨k0, k1⟩ ⟨l0, l1⟩]
      ring
    · intro k l k0 k1 l0 l1
      rw [anti_reflect h B' j ⟨k0, k1⟩ ⟨l0, l1⟩, anti_reflect h B' j ⟨k0, k1⟩ ⟨l0, l1⟩]
      ring
  exact ⟨main .rCon .r1 (Or.inl ⟨rfl, rfl⟩), main .zCon .z1 (Or.inr ⟨rfl, rfl⟩)⟩

end

end Verif.Asym
