import Verif.Constraint.PropsB
import Verif.Constraint.Ring

/-!
# C71: the whole force is the gradient of energy plus penalty
-/
namespace Verif.Constraint
open Verif Verif.Fourier Partition Finset Transform Spec

theorem zero_moved (sq ru zu r z : ℝ) :
    moved sq ru zu r z ⟨0, 0, 0, 0, 0, 0, 0, 0, 0, 0, 0, 0, 0, 0, 0, 0⟩ ⟨0, 0, 0, 0, 0, 0, 0, 0, 0, 0, 0, 0, 0, 0, 0, 0⟩ = 0 := by
  unfold moved
  ring

/-- a surface that does not move keeps its penalty -/
theorem penalty_still (s : Sizes.Sizes) (t sq : ℝ) (r0 z0 : Int → ℝ) (X Q d w : Int → Kernels.Geo)
    (hd : ∀ kl, d kl = ⟨0, 0, 0, 0, 0, 0, 0, 0, 0, 0, 0, 0, 0, 0, 0, 0⟩) (hw : ∀ kl, w kl = ⟨0, 0, 0, 0, 0, 0, 0, 0, 0, 0, 0, 0, 0, 0, 0, 0⟩) :
    HasDerivAt (fun ε => penalty s t fun kl => misalignment sq (r0 kl) (z0 kl)
        (Kernels.Spec.move (X kl) (d kl) ε) (Kernels.Spec.move (Q kl) (w kl) ε)) 0 0 := by
  have P := penalty_deriv s t (g := fun ε kl => misalignment sq (r0 kl) (z0 kl)
        (Kernels.Spec.move (X kl) (d kl) ε) (Kernels.Spec.move (Q kl) (w kl) ε)) (fun kl => misalignment_deriv _ _ _ _ _ _ _)
  refine P.congr_deriv ?_
  simp only [hd, hw, zero_moved]
  have : ∀ f m n, coef s (fun _ => 0) f m n = 0 := by
    intro f m n
    simp [coef, mean, Kernels.Spec.integral]
  simp [this]

/-- energy and penalties together -/
theorem assemble {nt ns : Int} {lfreeb : Bool} {R : Int → Ranges} (hT : Multigrid.GoodTeam nt ns lfreeb R) {σ D : ℝ} (hσ : σ = 1 ∨ σ = -1)
    {E : ℝ → ℝ} {a b : Int → Int → ℝ} {pen : Int → ℝ → ℝ}
    (hE : HasDerivAt E (-(D * σ * ∑ t ∈ Ico 0 nt, ∑ j ∈ Ico (R t).nsMinF (R t).nsMaxF, a t j)) 0)
    (h1 : ∀ t, isThread nt t → ∀ j, (R t).nsMinF ≤ j → j < (R t).nsMaxF → 1 ≤ j → HasDerivAt (pen j) (-(σ * (b t j - a t j))) 0)
    (h0 : ∀ t, isThread nt t → (R t).nsMinF = 0 → b t 0 = a t 0)
    (hl : lfreeb = false → HasDerivAt (pen (ns - 1)) 0 0) :
    HasDerivAt (fun ε => E ε + D * ∑ j ∈ Ico 1 ns, pen j ε) (-(D * σ * ∑ t ∈ Ico 0 nt, ∑ j ∈ Ico (R t).nsMinF (R t).nsMaxF, b t j)) 0 := by
  have hσ2 : σ * σ = 1 := by rcases hσ with rfl | rfl <;> norm_num
  have hns : 3 ≤ ns := (Kernels.good_of_team hT (t := 0) ⟨le_refl _, by have := hT.1; omega⟩).ns3
  set p : Int → ℝ := fun j => deriv (pen j) 0 with hp
  have hd : ∀ j, 1 ≤ j → j < ns → HasDerivAt (pen j) (p j) 0 := by
    intro j j0 j1
    by_cases hj : j < numSurfacesToDistribute ns lfreeb
    · obtain ⟨t, ht, hjt⟩ := ((C01_radial_split nt ns lfreeb R (by omega) hT.1 hT.2.2.2).1 j).1 (evolved_iff.2 ⟨by omega, hj⟩)
      exact (h1 t ht j hjt.1 hjt.2 j0).differentiableAt.hasDerivAt
    · have : lfreeb = false ∧ j = ns - 1 := by
        unfold numSurfacesToDistribute at hj
        cases lfreeb <;> simp at hj <;> constructor <;> first | rfl | omega
      rw [this.2]
      exact (hl this.1).differentiableAt.hasDerivAt
  have e1 : ∑ t ∈ Ico 0 nt, ∑ j ∈ Ico (R t).nsMinF (R t).nsMaxF, b t j =
      ∑ t ∈ Ico 0 nt, ∑ j ∈ Ico (R t).nsMinF (R t).nsMaxF, a t j - σ * ∑ j ∈ Ico 1 ns, p j := by
    have e2 : ∀ t ∈ Ico 0 nt, ∀ j ∈ Ico (R t).nsMinF (R t).nsMaxF, b t j = a t j - σ * (if 1 ≤ j then p j else 0) := by
      intro t ht j hj
      rw [Finset.mem_Ico] at ht hj
      split
      · rename_i hj1
        have := (h1 t ht j hj.1 hj.2 hj1).deriv
        have : p j = -(σ * (b t j - a t j)) := this
        rw [this]
        linear_combination (a t j - b t j) * hσ2
      · have g := (Kernels.good_of_team hT ht).minF
        have : j = 0 := by omega
        subst this
        rw [h0 t ht (by omega)]
        ring
    rw [Finset.sum_congr rfl fun t ht => Finset.sum_congr rfl (e2 t ht)]
    simp only [Finset.sum_sub_distrib, ← Finset.mul_sum]
    congr 2
    rw [Kernels.owned_sum hT, ← Finset.sum_filter]
    have : (Ico 0 (numSurfacesToDistribute ns lfreeb)).filter (fun j => 1 ≤ j) = Ico 1 (numSurfacesToDistribute ns lfreeb) := by
      ext j
      simp only [Finset.mem_filter, Finset.mem_Ico]
      omega
    rw [this]
    unfold numSurfacesToDistribute
    cases hf : lfreeb
    · simp only [Bool.false_eq_true, if_false]
      have e2 : Ico 1 ns = Ico 1 ((ns - 1) + 1) := by congr 1; omega
      rw [e2, sum_Ico_int_succ (by omega), show p (ns - 1) = 0 from (hl hf).deriv, add_zero]
    · simp only [if_true]
  have hsum : HasDerivAt (fun ε => ∑ j ∈ Ico 1 ns, pen j ε) (∑ j ∈ Ico 1 ns, p j) 0 :=
    HasDerivAt.fun_sum fun j hj => by
      rw [Finset.mem_Ico] at hj
      exact hd j hj.1 hj.2
  refine (hE.fun_add (hsum.const_mul D)).congr_deriv ?_
  rw [e1]
  linear_combination (-D * ∑ j ∈ Ico 1 ns, p j) * hσ2

theorem weighted_eq {C : Type} (A : C → Int → Int → Int → ℝ) : (fun a j m n => xmpqOf m * A a j m n) = weighted A := by
  funext a j m n
  unfold weighted xmpqOf
  push_cast
  rfl

theorem weighted_move {C : Type} (A ξ : C → Int → Int → Int → ℝ) (ε : ℝ) :
    weighted (fun a j m n => A a j m n + ε * ξ a j m n) = fun a j m n => weighted A a j m n + ε * weighted ξ a j m n := by
  funext a j m n
  unfold weighted
  ring

/-! ## With stellarator symmetry -/

section
variable {c : Ctx} {nfp mpol ntor ntheta nzeta mg ng : Int}

/-- what the constraint kernels read -/
theorem conOf_sym (hs : Sizes.mk false nfp mpol ntor ntheta nzeta mg ng = .ok c.s) (hxm : c.xmpq = xmpqOf)
    (A : Coef → Int → Int → Int → ℝ) (x : Coef → Int → ℝ)
    (h0 : 0 ≤ c.r.nsMinF1) (hx : ∀ a j m n, c.r.nsMinF1 ≤ j → j < c.r.nsMaxF1 → 0 ≤ m → m < mpol → 0 ≤ n → n ≤ ntor →
      x a (((j - c.r.nsMinF1) * mpol + m) * (ntor + 1) + n) = A a j m n) (r0 z0 u v : Int → ℝ) {j kl : Int}
    (hj : c.r.nsMinF1 ≤ j ∧ j < c.r.nsMaxF1) (hc : c.r.nsMinF ≤ j ∧ j < c.r.nsMaxFIncludingLcfs) (hkl : 0 ≤ kl ∧ kl < c.s.nZnT) :
    let i := (j - c.r.nsMinF) * c.s.nZnT + kl
    let sq := c.sqrtSF (j - c.r.nsMinF1)
    let q := conOf c (fourierToRealDft c x) r0 z0 u v
    let X := Transform.Spec.geo c.s A j kl
    let Q := Transform.Spec.geo c.s (weighted A) j kl
    q.rCon i = Q.r1_e + sq * Q.r1_o ∧ q.zCon i = Q.z1_e + sq * Q.z1_o ∧ q.ruFull i = X.ru_e + sq * X.ru_o ∧ q.zuFull i = X.zu_e + sq * X.zu_o := by
  have hg := goodP_of_mk hs
  obtain ⟨⟨a1, a2, a3, a4⟩, _⟩ := (Sizes.C07_sizes false nfp mpol ntor ntheta nzeta mg ng).2 c.s hs
  obtain ⟨_, h2, h3⟩ := sizes_symm hs
  have hpos : 0 < c.s.nThetaEff := by have := hg.red; omega
  have hk : 0 ≤ kl / c.s.nThetaEff ∧ kl / c.s.nThetaEff < c.s.nZeta :=
    ⟨Int.ediv_nonneg hkl.1 hpos.le, Int.ediv_lt_of_lt_mul hpos (by rw [← h3]; exact hkl.2)⟩
  have hl : 0 ≤ kl % c.s.nThetaEff ∧ kl % c.s.nThetaEff < c.s.nThetaReduced :=
    ⟨Int.emod_nonneg _ hpos.ne', by rw [← h2]; exact Int.emod_lt_of_pos _ hpos⟩
  have ei : (j - c.r.nsMinF) * c.s.nZnT + kl = idxKl c c.r.nsMinF j (kl / c.s.nThetaEff) + kl % c.s.nThetaEff := by
    rw [idx_flat hs, mul_comm (kl / c.s.nThetaEff), Int.mul_ediv_add_emod]
  intro i sq q X Q
  have main : ∀ (D : Arr) (a : GArr), ((D = .rCon ∧ a = .r1) ∨ (D = .zCon ∧ a = .z1)) →
      fourierToRealDft c x D i = Asym.get Q a true + sq * Asym.get Q a false := by
    intro D a hD
    show fourierToRealDft c x D ((j - c.r.nsMinF) * c.s.nZnT + kl) = _
    rw [ei, con_apply x hj hc (by omega) hk hl hg.eff D a hD]
    have s1 : ∀ e, ∑ m ∈ Transform.Spec.modes c.s.mpol j e, ∑ n ∈ Ico 0 (c.s.ntor + 1),
        c.xmpq m * gVal a (torTerm (fun a => x a (idxMn c c.r.nsMinF1 j m n)) (torAt c (kl / c.s.nThetaEff) n)) (polAt c m (kl % c.s.nThetaEff)) =
        Asym.get Q a e := by
      intro e
      refine Eq.trans ?_ (Asym.sums_get hg (weighted A) (by omega) hk hl a e)
      refine Finset.sum_congr rfl fun m hm => Finset.sum_congr rfl fun n hn => ?_
      have hm' := Finset.mem_Ico.1 ((mode_mem e (by omega)).1 hm).1
      have hn' := Finset.mem_Ico.1 hn
      rw [← Asym.gVal_scale, ← weighted_eq, hxm]
      congr 2
      funext a
      unfold idxMn
      rw [a3, a4, hx a j m n hj.1 hj.2 hm'.1 (by omega) hn'.1 (by omega)]
    rw [s1, s1]
  have hgeo := (C64_geometry hs A x h0 hx).2 j kl hj.1 hj.2 hkl.1 hkl.2
  refine ⟨main .rCon .r1 (Or.inl ⟨rfl, rfl⟩), main .zCon .z1 (Or.inr ⟨rfl, rfl⟩), ?_, ?_⟩
  · show fullOf c _ _ u ((j - c.r.nsMinF) * c.s.nZnT + kl) = _
    rw [fullOf_eq _ _ _ hc hkl]
    show _ = (Transform.Spec.geo c.s A j kl).ru_e + _ * (Transform.Spec.geo c.s A j kl).ru_o
    rw [← hgeo]
    rfl
  · show fullOf c _ _ v ((j - c.r.nsMinF) * c.s.nZnT + kl) = _
    rw [fullOf_eq _ _ _ hc hkl]
    show _ = (Transform.Spec.geo c.s A j kl).zu_e + _ * (Transform.Spec.geo c.s A j kl).zu_o
    rw [← hgeo]
    rfl

end

/-- the surfaces of a thread -/
theorem owned_range {nt ns : Int} {lfreeb : Bool} {R : Int → Ranges} (hT : Multigrid.GoodTeam nt ns lfreeb R) {t : Int}
    (ht : isThread nt t) {j : Int} (h0 : (R t).nsMinF ≤ j) (h1 : j < (R t).nsMaxF) :
    0 ≤ (R t).nsMinF1 ∧ 0 ≤ (R t).nsMinF ∧ (R t).nsMinF1 ≤ j ∧ j < (R t).nsMaxF1 ∧ j < (R t).nsMaxFIncludingLcfs ∧ j < ns := by
  have g := Kernels.good_of_team hT ht
  have e1 := g.minF
  have e2 := g.minF1
  have e3 := g.maxF1
  have e4 := g.lcfs
  have e5 := g.maxF_le
  have : numSurfacesToDistribute ns lfreeb ≤ ns := by unfold numSurfacesToDistribute; split <;> omega
  refine ⟨by omega, e1, by omega, by omega, ?_, by omega⟩
  rw [e4]
  split <;> omega

theorem inner_range {c : Ctx} (h : c.r.nsMaxF ≤ c.ns) {j : Int} (h1 : j < c.r.nsMaxF) (hb : ¬ (j = c.ns - 1 ∧ ¬ (c.lfreeb = true ∧ c.vacuum = true))) :
    j < jMaxRZ c := by
  unfold jMaxRZ
  split
  · rw [lt_min_iff]; omega
  · rename_i hh
    have : j ≠ c.ns - 1 := fun h => hb ⟨h, hh⟩
    rw [lt_min_iff]; omega

/-- **C71**, stellarator symmetry: coefficients `A` describe a torus; the threads of a team transform their part of it to
    real space, evaluate the force kernels, add the constraint force and transform back. Then the Fourier forces of all
    threads together are the gradient, with respect to the coefficients of `R` and `Z`, of the energy of the torus at fixed
    fluxes and fixed mass plus Δs times the penalties of the surfaces, with the references and the multipliers held fixed. -/
theorem C71_gradient {s : Sizes.Sizes} {nfp mpol ntor ntheta nzeta mg ng : Int} {K : Kernels.Ctx} {P : Kernels.Prof} {nt : Int}
    {R : Int → Ranges} {g : Int → Kernels.Given} {w : Int → Kernels.Work} {sqrtSF : Int → Int → ℝ} {vacuum : Bool}
    (A : Coef → Int → Int → Int → ℝ) (x : Int → Coef → Int → ℝ)
    (S T : Int → ℝ) (r0 z0 : Int → Int → ℝ) (tcon rCon0 zCon0 u v gEff : Int → Int → ℝ) (con : Int → FArr → Bool → Int → ℝ)
    (st : Int → (Four → Int → ℝ) × (Out → Int → ℝ))
    (hs : Sizes.mk false nfp mpol ntor ntheta nzeta mg ng = .ok s)
    (hK : (K.lthreed = true ∨ ntor = 0) ∧ K.nZnT = s.nZnT ∧ K.nThetaEff = s.nThetaEff ∧ K.wInt.size = s.nThetaEff ∧
      ∀ l, 0 ≤ l → l < s.nThetaEff → K.wInt.val l = Sizes.wInt s l)
    (hσ : K.signOfJacobian = 1 ∨ K.signOfJacobian = -1)
    (hT : Multigrid.GoodTeam nt K.ns K.lfreeb R)
    (hx : ∀ t, isThread nt t → ∀ a j m n, (R t).nsMinF1 ≤ j → j < (R t).nsMaxF1 → 0 ≤ m → m < mpol → 0 ≤ n → n ≤ ntor →
      x t a (((j - (R t).nsMinF1) * mpol + m) * (ntor + 1) + n) = A a j m n)
    (hcon : ∀ t, isThread nt t → ∀ j, (R t).nsMinF ≤ j → j < (R t).nsMaxF →
      sqrtSF t (j - (R t).nsMinF1) = S j ∧ tcon t (j - (R t).nsMinF) = T j ∧ ∀ kl, 0 ≤ kl → kl < s.nZnT →
        rCon0 t ((j - (R t).nsMinF) * s.nZnT + kl) = r0 j kl ∧ zCon0 t ((j - (R t).nsMinF) * s.nZnT + kl) = z0 j kl)
    (hW : ∀ t, isThread nt t → ∃ v, Kernels.Windows K (R t) P (Transform.Spec.geo s A) (g t) v (w t))
    (hγ : K.adiabaticIndex ≠ 1)
    (hg : ∀ h kl, 0 ≤ h → h < K.ns - 1 → 0 ≤ kl → kl < K.nZnT →
      Kernels.Spec.gsqrt K.deltaS (P.qH h) (Transform.Spec.geo s A h kl) (Transform.Spec.geo s A (h + 1) kl) ≠ 0)
    (hV : ∀ h, 0 ≤ h → h < K.ns - 1 → 0 < Kernels.Spec.volume K.deltaS K.signOfJacobian K.nZnT (Kernels.wt K) (P.qH h)
      (Transform.Spec.geo s A h) (Transform.Spec.geo s A (h + 1))) :
    let ct : Int → Ctx := fun t => ⟨s, R t, K.ns, K.lfreeb, vacuum, xmpqOf, sqrtSF t⟩
    let q : Int → Con := fun t => conOf (ct t) (fourierToRealDft (ct t) (x t)) (rCon0 t) (zCon0 t) (u t) (v t)
    ∃ e : Int → Kernels.Evaluated,
      (∀ t, isThread nt t → Kernels.evaluate K (R t) (g t) (geoVec (ct t) (x t)) (w t) = .ok (e t)) ∧
      ∀ ξ : Coef → Int → Int → Int → ℝ, (∀ j m n, ξ .lsc j m n = 0 ∧ ξ .lcs j m n = 0) → (∀ a m n, 1 ≤ m → ξ a 0 m n = 0) →
        (¬ (K.lfreeb = true ∧ vacuum = true) → ∀ a m n, ξ a (K.ns - 1) m n = 0) →
        HasDerivAt (fun ε =>
            let A' : Coef → Int → Int → Int → ℝ := fun a j m n => A a j m n + ε * ξ a j m n
            Kernels.torusEnergy K P (Kernels.fluxU K P (Transform.Spec.geo s A)) (Kernels.fluxV K P (Transform.Spec.geo s A))
              (Transform.Spec.geo s A') +
            K.deltaS * ∑ j ∈ Ico 1 K.ns, penalty s (T j) fun kl => misalignment (S j) (r0 j kl) (z0 j kl)
              (Transform.Spec.geo s A' j kl) (Transform.Spec.geo s (weighted A') j kl))
          (-(K.deltaS * K.signOfJacobian * ∑ t ∈ Ico 0 nt, ∑ j ∈ Ico (R t).nsMinF (R t).nsMaxF,
            Transform.Spec.modePower mpol ntor (fun a m n =>
              forcesToFourierDft (ct t) (total (ct t) (facconOf mpol K.signOfJacobian) (tcon t) (q t) (gEff t) (st t)
                (forceArrays (e t).force.val (e t).lam.val (con t))) a
                (((j - (R t).nsMinF) * mpol + m) * (ntor + 1) + n)) fun a => ξ a j)) 0 := by
  intro ct q
  obtain ⟨e, he, hD⟩ := C64_gradient (sqrtSF := sqrtSF) (xmpq := xmpqOf) (vacuum := vacuum) A x hs hK hT hx hW hγ hg hV
  refine ⟨e, he, fun ξ hlam hax hbd => ?_⟩
  have hm := ((Sizes.C07_sizes false nfp mpol ntor ntheta nzeta mg ng).2 s hs).1.2.2.1
  have hlw : ∀ j m n, weighted ξ .lsc j m n = 0 ∧ weighted ξ .lcs j m n = 0 := by
    intro j m n
    unfold weighted
    rw [(hlam j m n).1, (hlam j m n).2]
    simp
  set pen : Int → ℝ → ℝ := fun j ε => penalty s (T j) fun kl => misalignment (S j) (r0 j kl) (z0 j kl)
      (Transform.Spec.geo s (fun a j m n => A a j m n + ε * ξ a j m n) j kl)
      (Transform.Spec.geo s (weighted fun a j m n => A a j m n + ε * ξ a j m n) j kl) with hpen
  have hpen' : ∀ j, pen j = fun ε => penalty s (T j) fun kl => misalignment (S j) (r0 j kl) (z0 j kl)
      (Kernels.Spec.move (Transform.Spec.geo s A j kl) (Transform.Spec.geo s ξ j kl) ε)
      (Kernels.Spec.move (Transform.Spec.geo s (weighted A) j kl) (Transform.Spec.geo s (weighted ξ) j kl) ε) := by
    intro j
    funext ε
    rw [hpen]
    dsimp only
    congr 1
    funext kl
    rw [weighted_move, geo_move s A ξ hlam ε j kl, geo_move s (weighted A) (weighted ξ) hlw ε j kl]
  have still : ∀ j, (∀ a m n, ξ a j m n = 0) → HasDerivAt (pen j) 0 0 := by
    intro j hj
    rw [hpen' j]
    exact penalty_still s (T j) (S j) (r0 j) (z0 j) _ _ _ _ (fun kl => geo_zero s ξ j kl hj)
      (fun kl => geo_zero s (weighted ξ) j kl fun a m n => by unfold weighted; rw [hj, mul_zero])
  have split : ∀ t, isThread nt t → ∀ j, (R t).nsMinF ≤ j → j < (R t).nsMaxF → ¬ (j = K.ns - 1 ∧ ¬ (K.lfreeb = true ∧ vacuum = true)) →
      Transform.Spec.modePower mpol ntor (fun a m n =>
              forcesToFourierDft (ct t) (total (ct t) (facconOf mpol K.signOfJacobian) (tcon t) (q t) (gEff t) (st t)
                (forceArrays (e t).force.val (e t).lam.val (con t))) a
                (((j - (R t).nsMinF) * mpol + m) * (ntor + 1) + n)) (fun a => ξ a j) -
      Transform.Spec.modePower mpol ntor (fun a m n =>
              forcesToFourierDft (ct t) (forceArrays (e t).force.val (e t).lam.val fun _ _ _ => 0) a
                (((j - (R t).nsMinF) * mpol + m) * (ntor + 1) + n)) (fun a => ξ a j) =
      mean s fun kl =>
        let i := (j - (R t).nsMinF) * s.nZnT + kl
        deAlias (ct t) (facconOf s.mpol K.signOfJacobian) (tcon t) (effective (ct t) (q t) (gEff t)) (st t) i *
          moved (sqrtSF t (j - (R t).nsMinF1)) ((q t).ruFull i) ((q t).zuFull i) ((q t).rCon i - (q t).rCon0 i) ((q t).zCon i - (q t).zCon0 i)
            (Transform.Spec.geo s ξ j kl) (Transform.Spec.geo s (weighted ξ) j kl) := by
    intro t ht j h0 h1 hb
    have hr := owned_range hT ht h0 h1
    have hle : (R t).nsMaxF ≤ K.ns := by
      have := (Kernels.good_of_team hT ht).maxF_le
      have : numSurfacesToDistribute K.ns K.lfreeb ≤ K.ns := by unfold numSurfacesToDistribute; split <;> omega
      omega
    have hjm : j < jMaxRZ (ct t) := inner_range (c := ct t) hle h1 hb
    set D := total (ct t) (facconOf mpol K.signOfJacobian) (tcon t) (q t) (gEff t) (st t)
      (forceArrays (e t).force.val (e t).lam.val (con t)) with hDdef
    have k1 := C64_transpose (c := ct t) hs (forceOf D) (lamOf D) D ξ ⟨h0, hjm⟩ (by omega) (fun hj a m n hm => by rw [hj]; exact hax a m n hm)
    have k2 := C64_transpose (c := ct t) hs (e t).force.val (e t).lam.val (fun _ _ _ => 0) ξ ⟨h0, hjm⟩ (by omega)
      (fun hj a m n hm => by rw [hj]; exact hax a m n hm)
    rw [arrays_form] at k1
    refine (congrArg₂ (· - ·) k1 k2).trans ?_
    unfold mean Kernels.Spec.integral
    rw [← Finset.sum_sub_distrib]
    refine Finset.sum_congr rfl fun kl hkl => ?_
    rw [Finset.mem_Ico] at hkl
    beta_reduce
    rw [← sub_mul]
    congr 1
    have ps := power_split (c := ct t) (q t) (deAlias (ct t) (facconOf mpol K.signOfJacobian) (tcon t) (effective (ct t) (q t) (gEff t)) (st t))
      (e t).force.val (e t).lam.val (con t) (j := j) (k := kl) ⟨h0, h1⟩ hkl (Transform.Spec.geo s ξ j kl) (Transform.Spec.geo s (weighted ξ) j kl)
    have hxw : (fun a j m n => (ct t).xmpq m * ξ a j m n) = weighted ξ := weighted_eq ξ
    rw [hxw]
    dsimp only
    refine (congrArg₂ (· - ·) ps rfl).trans ?_
    rw [hm]
    ring
  refine assemble hT hσ (hD ξ hlam hax hbd) (fun t ht j h0 h1 hj1 => ?_) (fun t ht h0 => ?_) (fun hl => ?_)
  · by_cases hb : j = K.ns - 1 ∧ ¬ (K.lfreeb = true ∧ vacuum = true)
    · have z : ∀ a m n, ξ a j m n = 0 := by rw [hb.1]; exact hbd hb.2
      refine (still j z).congr_deriv ?_
      simp only [Transform.Spec.modePower, z]
      simp
    · rw [split t ht j h0 h1 hb]
      obtain ⟨b1, b2, b3, b4, b5, b6⟩ := owned_range hT ht h0 h1
      obtain ⟨c1, c2, c3⟩ := hcon t ht j h0 h1
      have sp := surface_power (c := ct t) hs hσ (tcon t) (q t) (gEff t) (st t) (j := j) ⟨b2, h0, h1⟩ b5 hj1
        (Transform.Spec.geo s A j) (Transform.Spec.geo s (weighted A) j) (Transform.Spec.geo s ξ j) (Transform.Spec.geo s (weighted ξ) j)
        (r0 j) (z0 j) (fun kl k0 k1 => by
          obtain ⟨d1, d2, d3, d4⟩ := conOf_sym (c := ct t) hs rfl A (x t) b1 (hx t ht) (rCon0 t) (zCon0 t) (u t) (v t) (j := j) (kl := kl)
            ⟨b3, b4⟩ ⟨h0, b5⟩ ⟨k0, k1⟩
          refine ⟨?_, ?_, d3, d4⟩
          · rw [d1]; exact congrArg₂ (· - ·) rfl (c3 kl k0 k1).1
          · rw [d2]; exact congrArg₂ (· - ·) rfl (c3 kl k0 k1).2)
      show HasDerivAt (pen j) _ 0
      rw [hpen' j]
      have c1' : (ct t).sqrtSF (j - (ct t).r.nsMinF1) = S j := c1
      have c2' : tcon t (j - (ct t).r.nsMinF) = T j := c2
      rw [c1', c2'] at sp
      rw [c1]
      exact sp
  · have g0 := Kernels.good_of_team hT ht
    have g1 := g0.maxF
    have g2 := g0.ns3
    have := split t ht 0 (by omega) (by omega) (by omega)
    have ax := axis_power (c := ct t) hs (facconOf s.mpol K.signOfJacobian) (tcon t) (effective (ct t) (q t) (gEff t)) (fun kl =>
        let i := (0 - (R t).nsMinF) * s.nZnT + kl
        moved (sqrtSF t (0 - (R t).nsMinF1)) ((q t).ruFull i) ((q t).zuFull i) ((q t).rCon i - (q t).rCon0 i) ((q t).zCon i - (q t).zCon0 i)
            (Transform.Spec.geo s ξ 0 kl) (Transform.Spec.geo s (weighted ξ) 0 kl)) (st t)
      ⟨by show 0 ≤ (R t).nsMinF; omega, by show (R t).nsMinF ≤ 0; omega, by show 0 < (R t).nsMaxF; omega⟩
    exact sub_eq_zero.1 (this.trans ax)
  · exact still _ (hbd (by rw [hl]; simp))

/-- **C71**, the penalty is not negative, and vanishes if and only if the misalignment has no component in the band -/
theorem C71_penalty (s : Sizes.Sizes) (g : Int → ℝ) :
    (∀ t, 0 ≤ t → 0 ≤ penalty s t g) ∧ ∀ t, 0 < t → (penalty s t g = 0 ↔
      ∀ f ∈ fams s.lasym, ∀ m n, 1 ≤ m → m < s.mpol - 1 → 0 ≤ n → n ≤ s.ntor → coef s g f m n = 0) := by
  have h0 : 0 ≤ ∑ f ∈ fams s.lasym, ∑ m ∈ Ico 1 (s.mpol - 1), ∑ n ∈ Ico 0 (s.ntor + 1), (coef s g f m n / (m * (m + 1))) ^ 2 :=
    Finset.sum_nonneg fun f _ => Finset.sum_nonneg fun m _ => Finset.sum_nonneg fun n _ => sq_nonneg _
  refine ⟨fun t ht => mul_nonneg (by positivity) h0, fun t ht => ?_⟩
  unfold penalty
  rw [mul_eq_zero, or_iff_right (by positivity)]
  constructor
  · intro h f hf m n m0 m1 n0 n1
    rw [Finset.sum_eq_zero_iff_of_nonneg (fun f _ => Finset.sum_nonneg fun m _ => Finset.sum_nonneg fun n _ => sq_nonneg _)] at h
    have h := h f hf
    rw [Finset.sum_eq_zero_iff_of_nonneg (fun m _ => Finset.sum_nonneg fun n _ => sq_nonneg _)] at h
    have h := h m (by rw [Finset.mem_Ico]; omega)
    rw [Finset.sum_eq_zero_iff_of_nonneg (fun n _ => sq_nonneg _)] at h
    have h := h n (by rw [Finset.mem_Ico]; omega)
    have hm : (0 : ℝ) < m * (m + 1) := by
      have : (0 : ℝ) < m := by exact_mod_cast m0
      positivity
    rw [sq_eq_zero_iff, div_eq_zero_iff] at h
    exact h.resolve_right hm.ne'
  · intro h
    refine Finset.sum_eq_zero fun f hf => Finset.sum_eq_zero fun m hm => Finset.sum_eq_zero fun n hn => ?_
    rw [Finset.mem_Ico] at hm hn
    rw [h f hf m n hm.1 hm.2 hn.1 (by omega)]
    simp

theorem wInt_pos_sym {c : Ctx} {nfp mpol ntor ntheta nzeta mg ng : Int} (hs : Sizes.mk false nfp mpol ntor ntheta nzeta mg ng = .ok c.s)
    (l : Int) : (0 : ℝ) < Sizes.wInt c.s l := by
  have hg := goodP_of_mk hs
  have := hg.red
  have := hg.nyq
  have := hg.ntor
  rw [← pw_eq hs]
  unfold pw
  have : (0 : ℝ) < (c.s.nZeta * (c.s.nThetaReduced - 1) : Int) := by
    exact_mod_cast mul_pos (show 0 < c.s.nZeta by omega) (show 0 < c.s.nThetaReduced - 1 by omega)
  split <;> positivity

/-- C71: circular torus, mpol = 4, ntor = 1, two threads, reference -1, multiplier 1 -/
example (ξ : Coef → Int → Int → Int → ℝ) (h1 : ∀ j m n, ξ .lsc j m n = 0 ∧ ξ .lcs j m n = 0) (h2 : ∀ a m n, 1 ≤ m → ξ a 0 m n = 0)
    (h3 : ∀ a m n, ξ a 4 m n = 0) : ∃ (s : Sizes.Sizes) (R : Int → Ranges) (F : Int → Coef → Int → ℝ),
    Sizes.mk false 5 4 1 0 0 0 0 = .ok s ∧ HasDerivAt (fun ε =>
        let A' : Coef → Int → Int → Int → ℝ := fun a j m n => ringCoef a j m n + ε * ξ a j m n
        Kernels.torusEnergy (ringCtx s) Kernels.ringProf
          (Kernels.fluxU (ringCtx s) Kernels.ringProf (Transform.Spec.geo s ringCoef))
          (Kernels.fluxV (ringCtx s) Kernels.ringProf (Transform.Spec.geo s ringCoef)) (Transform.Spec.geo s A') +
        (ringCtx s).deltaS * ∑ j ∈ Ico 1 5, penalty s 1 fun kl => misalignment 1 (-1) 0 (Transform.Spec.geo s A' j kl)
          (Transform.Spec.geo s (weighted A') j kl))
      (-((ringCtx s).deltaS * (ringCtx s).signOfJacobian * ∑ t ∈ Ico 0 2, ∑ j ∈ Ico (R t).nsMinF (R t).nsMaxF,
        Transform.Spec.modePower 4 1 (fun a m n => F t a (((j - (R t).nsMinF) * 4 + m) * (1 + 1) + n)) fun a => ξ a j)) 0 := by
  obtain ⟨s, hs⟩ : ∃ s, Sizes.mk false 5 4 1 0 0 0 0 = .ok s := ⟨_, rfl⟩
  obtain ⟨R, hR⟩ := Kernels.demo_team 2 (by omega) (by omega)
  have hsz : 2 ≤ s.mpol ∧ 0 ≤ s.ntor := by
    obtain ⟨⟨a1, a2, a3, a4⟩, _⟩ := (Sizes.C07_sizes false 5 4 1 0 0 0 0).2 s hs
    omega
  obtain ⟨z1, z2, z3, _⟩ := grid_of_mk (c := ⟨s, R 0, 5, false, false, xmpqOf, fun _ => 1⟩) hs
  have hp : 0 < s.nZnT := by rw [show s.nZnT = s.nZeta * s.nThetaEff from z1]; exact mul_pos z3 z2
  choose g geo w hw using fun t => Kernels.windows_exist (ringCtx s) (R t) Kernels.ringProf (Transform.Spec.geo s ringCoef)
  have hV := ring_volume s (Transform.Spec.geo s ringCoef) hp
    (wInt_pos_sym (c := ⟨s, R 0, 5, false, false, xmpqOf, fun _ => 1⟩) hs) (ring_gsqrt' s hsz)
  obtain ⟨e, he, hD⟩ := C71_gradient (K := ringCtx s) (P := Kernels.ringProf) (R := R) (g := g) (w := w) (sqrtSF := fun _ _ => 1)
    (vacuum := false) ringCoef (fun _ a i => ringCoef a 0 (i / (1 + 1) % 4) (i % (1 + 1))) (fun _ => 1) (fun _ => 1) (fun _ _ => -1) (fun _ _ => 0)
    (fun _ _ => 1) (fun _ _ => -1) (fun _ _ => 0) (fun _ _ => 0) (fun _ _ => 0) (fun _ _ => 0) (fun _ _ _ _ => 0)
    (fun _ => (fun _ _ => 0, fun _ _ => 0)) hs ⟨Or.inl rfl, rfl, rfl, rfl, fun _ _ _ => rfl⟩ (Or.inr rfl) hR
    (fun t _ a j m n _ _ m0 m1 n0 n1 => ring_arrays ringCoef (fun a _ _ _ => by cases a <;> rfl) 4 1 (R t).nsMinF1 m0 m1 n0 n1 a)
    (fun _ _ _ _ _ => ⟨rfl, rfl, fun _ _ _ => ⟨rfl, rfl⟩⟩)
    (fun t _ => ⟨_, hw t⟩) (by norm_num [ringCtx, Kernels.demo]) (fun h kl _ _ _ _ => (ring_gsqrt' s hsz h kl).ne) (fun h _ _ => hV h)
  exact ⟨s, R, _, hs, hD ξ h1 h2 fun _ => h3⟩

end Verif.Constraint
