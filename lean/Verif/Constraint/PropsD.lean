import Verif.Constraint.PropsC

/-!
# C71 without stellarator symmetry
-/
namespace Verif.Constraint
open Verif Verif.Fourier Partition Finset Transform Spec Asym

section
variable {c : Ctx} {nfp mpol ntor ntheta nzeta mg ng : Int}

/-- what the constraint kernels read -/
theorem conOf_asym (hs : Sizes.mk true nfp mpol ntor ntheta nzeta mg ng = .ok c.s) (hn : 1 ≤ ntor) (hxm : c.xmpq = xmpqOf)
    (A : Coef → Int → Int → Int → ℝ) (B : CoefA → Int → Int → Int → ℝ) (x : Coef → Int → ℝ) (xa : CoefA → Int → ℝ)
    (h0 : 0 ≤ c.r.nsMinF1) (hr : c.r.nsMinF1 ≤ c.r.nsMaxF1) (hr' : c.r.nsMinF ≤ c.r.nsMaxFIncludingLcfs)
    (hx : ∀ a j m n, c.r.nsMinF1 ≤ j → j < c.r.nsMaxF1 → 0 ≤ m → m < mpol → 0 ≤ n → n ≤ ntor →
      x a (((j - c.r.nsMinF1) * mpol + m) * (ntor + 1) + n) = A a j m n)
    (hxa : ∀ a j m n, c.r.nsMinF1 ≤ j → j < c.r.nsMaxF1 → 0 ≤ m → m < mpol → 0 ≤ n → n ≤ ntor →
      xa a (((j - c.r.nsMinF1) * mpol + m) * (ntor + 1) + n) = B a j m n) (r0 z0 u v : Int → ℝ) {j kl : Int}
    (hj : c.r.nsMinF1 ≤ j ∧ j < c.r.nsMaxF1) (hc : c.r.nsMinF ≤ j ∧ j < c.r.nsMaxFIncludingLcfs) (hkl : 0 ≤ kl ∧ kl < c.s.nZnT) :
    let i := (j - c.r.nsMinF) * c.s.nZnT + kl
    let sq := c.sqrtSF (j - c.r.nsMinF1)
    let q := conOf c (geometryFromFourier c x xa) r0 z0 u v
    let X := Asym.Spec.geo c.s A B j kl
    let Q := Asym.Spec.geo c.s (weighted A) (weighted B) j kl
    q.rCon i = Q.r1_e + sq * Q.r1_o ∧ q.zCon i = Q.z1_e + sq * Q.z1_o ∧ q.ruFull i = X.ru_e + sq * X.ru_o ∧ q.zuFull i = X.zu_e + sq * X.zu_o := by
  have hf := full_of_mk hs
  have hpos : 0 < c.s.nThetaEff := by have := hf.full; have := hf.even; have := hf.red; omega
  have hk : 0 ≤ kl / c.s.nThetaEff ∧ kl / c.s.nThetaEff < c.s.nZeta :=
    ⟨Int.ediv_nonneg hkl.1 hpos.le, Int.ediv_lt_of_lt_mul hpos (by rw [← hf.znt]; exact hkl.2)⟩
  have hl : 0 ≤ kl % c.s.nThetaEff ∧ kl % c.s.nThetaEff < c.s.nThetaEven :=
    ⟨Int.emod_nonneg _ hpos.ne', by rw [← hf.full]; exact Int.emod_lt_of_pos _ hpos⟩
  have ei : kl / c.s.nThetaEff * c.s.nThetaEff + kl % c.s.nThetaEff = kl := by
    rw [mul_comm, Int.mul_ediv_add_emod]
  intro i sq q X Q
  have main := C68_constraint hs hn A B x xa h0 hr hx hxa hj hc hk hl
  dsimp only at main
  rw [ei, hxm, weighted_eq, weighted_eq] at main
  have hgeo := (C68_geometry hs hn A B x xa h0 hr' hx hxa).2 j kl hj.1 hj.2 hkl.1 hkl.2
  refine ⟨main.1, main.2, ?_, ?_⟩
  · show fullOf c _ _ u ((j - c.r.nsMinF) * c.s.nZnT + kl) = _
    rw [fullOf_eq _ _ _ hc hkl]
    show _ = (Asym.Spec.geo c.s A B j kl).ru_e + _ * (Asym.Spec.geo c.s A B j kl).ru_o
    rw [← hgeo]
    rfl
  · show fullOf c _ _ v ((j - c.r.nsMinF) * c.s.nZnT + kl) = _
    rw [fullOf_eq _ _ _ hc hkl]
    show _ = (Asym.Spec.geo c.s A B j kl).zu_e + _ * (Asym.Spec.geo c.s A B j kl).zu_o
    rw [← hgeo]
    rfl

end

/-- **C71**, no stellarator symmetry: the same with the coefficients `A` and `B`, three-dimensional runs -/
theorem C71_gradient_asym {s : Sizes.Sizes} {nfp mpol ntor ntheta nzeta mg ng : Int} {K : Kernels.Ctx} {P : Kernels.Prof} {nt : Int}
    {R : Int → Ranges} {g : Int → Kernels.Given} {w : Int → Kernels.Work} {sqrtSF : Int → Int → ℝ} {vacuum : Bool}
    (A : Coef → Int → Int → Int → ℝ) (B : CoefA → Int → Int → Int → ℝ) (x : Int → Coef → Int → ℝ) (xa : Int → CoefA → Int → ℝ)
    (S T : Int → ℝ) (r0 z0 : Int → Int → ℝ) (tcon rCon0 zCon0 u v gEff : Int → Int → ℝ) (con da : Int → FArr → Bool → Int → ℝ)
    (st : Int → (Four → Int → ℝ) × (Out → Int → ℝ))
    (hs : Sizes.mk true nfp mpol ntor ntheta nzeta mg ng = .ok s) (hn : 1 ≤ ntor)
    (hK : K.lthreed = true ∧ K.nZnT = s.nZnT ∧ K.nThetaEff = s.nThetaEff ∧ K.wInt.size = s.nThetaEff ∧
      ∀ l, 0 ≤ l → l < s.nThetaEff → K.wInt.val l = Sizes.wInt s l)
    (hσ : K.signOfJacobian = 1 ∨ K.signOfJacobian = -1)
    (hT : Multigrid.GoodTeam nt K.ns K.lfreeb R)
    (hx : ∀ t, isThread nt t → ∀ j m n, (R t).nsMinF1 ≤ j → j < (R t).nsMaxF1 → 0 ≤ m → m < mpol → 0 ≤ n → n ≤ ntor →
      (∀ a, x t a (((j - (R t).nsMinF1) * mpol + m) * (ntor + 1) + n) = A a j m n) ∧
      ∀ a, xa t a (((j - (R t).nsMinF1) * mpol + m) * (ntor + 1) + n) = B a j m n)
    (hcon : ∀ t, isThread nt t → ∀ j, (R t).nsMinF ≤ j → j < (R t).nsMaxF →
      sqrtSF t (j - (R t).nsMinF1) = S j ∧ tcon t (j - (R t).nsMinF) = T j ∧ ∀ kl, 0 ≤ kl → kl < s.nZnT →
        rCon0 t ((j - (R t).nsMinF) * s.nZnT + kl) = r0 j kl ∧ zCon0 t ((j - (R t).nsMinF) * s.nZnT + kl) = z0 j kl)
    (hW : ∀ t, isThread nt t → ∃ v, Kernels.Windows K (R t) P (Asym.Spec.geo s A B) (g t) v (w t))
    (hγ : K.adiabaticIndex ≠ 1)
    (hg : ∀ h kl, 0 ≤ h → h < K.ns - 1 → 0 ≤ kl → kl < K.nZnT →
      Kernels.Spec.gsqrt K.deltaS (P.qH h) (Asym.Spec.geo s A B h kl) (Asym.Spec.geo s A B (h + 1) kl) ≠ 0)
    (hV : ∀ h, 0 ≤ h → h < K.ns - 1 → 0 < Kernels.Spec.volume K.deltaS K.signOfJacobian K.nZnT (Kernels.wt K) (P.qH h)
      (Asym.Spec.geo s A B h) (Asym.Spec.geo s A B (h + 1))) :
    let ct : Int → Ctx := fun t => ⟨s, R t, K.ns, K.lfreeb, vacuum, xmpqOf, sqrtSF t⟩
    let q : Int → Con := fun t => conOf (ct t) (geometryFromFourier (ct t) (x t) (xa t)) (rCon0 t) (zCon0 t) (u t) (v t)
    ∃ e : Int → Kernels.Evaluated,
      (∀ t, isThread nt t → Kernels.evaluate K (R t) (g t) (Asym.geoVec (ct t) (x t) (xa t)) (w t) = .ok (e t)) ∧
      let F := fun t => forcesToFourier (ct t) (total (ct t) (facconOf mpol K.signOfJacobian) (tcon t) (q t) (gEff t) (st t)
                (forceArrays (e t).force.val (e t).lam.val (con t))) (da t)
      ∀ (ξ : Coef → Int → Int → Int → ℝ) (η : CoefA → Int → Int → Int → ℝ),
        (∀ j m n, (ξ .lsc j m n = 0 ∧ ξ .lcs j m n = 0) ∧ η .lcc j m n = 0 ∧ η .lss j m n = 0) →
        (∀ m n, 1 ≤ m → (∀ a, ξ a 0 m n = 0) ∧ ∀ a, η a 0 m n = 0) →
        (¬ (K.lfreeb = true ∧ vacuum = true) → ∀ m n, (∀ a, ξ a (K.ns - 1) m n = 0) ∧ ∀ a, η a (K.ns - 1) m n = 0) →
        HasDerivAt (fun ε =>
            let A' : Coef → Int → Int → Int → ℝ := fun a j m n => A a j m n + ε * ξ a j m n
            let B' : CoefA → Int → Int → Int → ℝ := fun a j m n => B a j m n + ε * η a j m n
            Kernels.torusEnergy K P (Kernels.fluxU K P (Asym.Spec.geo s A B)) (Kernels.fluxV K P (Asym.Spec.geo s A B))
              (Asym.Spec.geo s A' B') +
            K.deltaS * ∑ j ∈ Ico 1 K.ns, penalty s (T j) fun kl => misalignment (S j) (r0 j kl) (z0 j kl)
              (Asym.Spec.geo s A' B' j kl) (Asym.Spec.geo s (weighted A') (weighted B') j kl))
          (-(K.deltaS * K.signOfJacobian * ∑ t ∈ Ico 0 nt, ∑ j ∈ Ico (R t).nsMinF (R t).nsMaxF,
            (Transform.Spec.modePower mpol ntor (fun a m n => (F t).1 a (((j - (R t).nsMinF) * mpol + m) * (ntor + 1) + n)) (fun a => ξ a j) +
              Asym.Spec.modePowerA mpol ntor (fun a m n => (F t).2 a (((j - (R t).nsMinF) * mpol + m) * (ntor + 1) + n)) fun a => η a j))) 0 := by
  intro ct q
  obtain ⟨e, he, hD⟩ := C69_gradient (sqrtSF := sqrtSF) (xmpq := xmpqOf) (vacuum := vacuum) A B x xa da hs hn hK hT hx hW hγ hg hV
  refine ⟨e, he, ?_⟩
  intro F ξ η hlam hax hbd
  have hm := ((Sizes.C07_sizes true nfp mpol ntor ntheta nzeta mg ng).2 s hs).1.2.2.1
  have hlw : ∀ j m n, (weighted ξ .lsc j m n = 0 ∧ weighted ξ .lcs j m n = 0) ∧ weighted η .lcc j m n = 0 ∧ weighted η .lss j m n = 0 := by
    intro j m n
    obtain ⟨⟨a1, a2⟩, a3, a4⟩ := hlam j m n
    unfold weighted
    rw [a1, a2, a3, a4]
    simp
  set pen : Int → ℝ → ℝ := fun j ε => penalty s (T j) fun kl => misalignment (S j) (r0 j kl) (z0 j kl)
      (Asym.Spec.geo s (fun a j m n => A a j m n + ε * ξ a j m n) (fun a j m n => B a j m n + ε * η a j m n) j kl)
      (Asym.Spec.geo s (weighted fun a j m n => A a j m n + ε * ξ a j m n) (weighted fun a j m n => B a j m n + ε * η a j m n) j kl) with hpen
  have hpen' : ∀ j, pen j = fun ε => penalty s (T j) fun kl => misalignment (S j) (r0 j kl) (z0 j kl)
      (Kernels.Spec.move (Asym.Spec.geo s A B j kl) (Asym.Spec.geo s ξ η j kl) ε)
      (Kernels.Spec.move (Asym.Spec.geo s (weighted A) (weighted B) j kl) (Asym.Spec.geo s (weighted ξ) (weighted η) j kl) ε) := by
    intro j
    funext ε
    rw [hpen]
    dsimp only
    congr 1
    funext kl
    rw [weighted_move, weighted_move, Asym.geo_move s A ξ B η hlam ε j kl,
      Asym.geo_move s (weighted A) (weighted ξ) (weighted B) (weighted η) hlw ε j kl]
  have still : ∀ j, (∀ m n, (∀ a, ξ a j m n = 0) ∧ ∀ a, η a j m n = 0) → HasDerivAt (pen j) 0 0 := by
    intro j hj
    rw [hpen' j]
    exact penalty_still s (T j) (S j) (r0 j) (z0 j) _ _ _ _ (fun kl => Asym.geo_zero s ξ η j kl hj)
      (fun kl => Asym.geo_zero s (weighted ξ) (weighted η) j kl fun m n =>
        ⟨fun a => by unfold weighted; rw [(hj m n).1, mul_zero], fun a => by unfold weighted; rw [(hj m n).2, mul_zero]⟩)
  set F0 := fun t => forcesToFourier (ct t) (forceArrays (e t).force.val (e t).lam.val fun _ _ _ => 0) (da t) with hF0
  have split : ∀ t, isThread nt t → ∀ j, (R t).nsMinF ≤ j → j < (R t).nsMaxF → ¬ (j = K.ns - 1 ∧ ¬ (K.lfreeb = true ∧ vacuum = true)) →
      (Transform.Spec.modePower mpol ntor (fun a m n => (F t).1 a (((j - (R t).nsMinF) * mpol + m) * (ntor + 1) + n)) (fun a => ξ a j) +
        Asym.Spec.modePowerA mpol ntor (fun a m n => (F t).2 a (((j - (R t).nsMinF) * mpol + m) * (ntor + 1) + n)) (fun a => η a j)) -
      (Transform.Spec.modePower mpol ntor (fun a m n => (F0 t).1 a (((j - (R t).nsMinF) * mpol + m) * (ntor + 1) + n)) (fun a => ξ a j) +
        Asym.Spec.modePowerA mpol ntor (fun a m n => (F0 t).2 a (((j - (R t).nsMinF) * mpol + m) * (ntor + 1) + n)) (fun a => η a j)) =
      mean s fun kl =>
        let i := (j - (R t).nsMinF) * s.nZnT + kl
        deAlias (ct t) (facconOf s.mpol K.signOfJacobian) (tcon t) (effective (ct t) (q t) (gEff t)) (st t) i *
          moved (sqrtSF t (j - (R t).nsMinF1)) ((q t).ruFull i) ((q t).zuFull i) ((q t).rCon i - (q t).rCon0 i) ((q t).zCon i - (q t).zCon0 i)
            (Asym.Spec.geo s ξ η j kl) (Asym.Spec.geo s (weighted ξ) (weighted η) j kl) := by
    intro t ht j h0 h1 hb
    have hr := owned_range hT ht h0 h1
    have hle : (R t).nsMaxF ≤ K.ns := by
      have := (Kernels.good_of_team hT ht).maxF_le
      have : numSurfacesToDistribute K.ns K.lfreeb ≤ K.ns := by unfold numSurfacesToDistribute; split <;> omega
      omega
    have hjm : j < jMaxRZ (ct t) := inner_range (c := ct t) hle h1 hb
    set D := total (ct t) (facconOf mpol K.signOfJacobian) (tcon t) (q t) (gEff t) (st t)
      (forceArrays (e t).force.val (e t).lam.val (con t)) with hDdef
    have k1 := C69_transpose (c := ct t) hs hn (forceOf D) (lamOf D) D (da t) ξ η ⟨h0, hjm⟩ (by omega)
      (fun hj m n hm => by rw [hj]; exact hax m n hm)
    have k2 := C69_transpose (c := ct t) hs hn (e t).force.val (e t).lam.val (fun _ _ _ => 0) (da t) ξ η ⟨h0, hjm⟩ (by omega)
      (fun hj m n hm => by rw [hj]; exact hax m n hm)
    rw [arrays_form] at k1
    refine (congrArg₂ (· - ·) k1 k2).trans ?_
    unfold mean Kernels.Spec.integral
    rw [← Finset.sum_sub_distrib]
    refine Finset.sum_congr rfl fun kl hkl => ?_
    rw [Finset.mem_Ico] at hkl
    beta_reduce
    rw [← sub_mul]
    congr 1
    have ps := power_split (c := ct t) (q t) (deAlias (ct t) (facconOf mpol K.signOfJacobian) (tcon t) (effective (ct t) (q t) (gEff t)) (st t))
      (e t).force.val (e t).lam.val (con t) (j := j) (k := kl) ⟨h0, h1⟩ hkl (Asym.Spec.geo s ξ η j kl)
      (Asym.Spec.geo s (weighted ξ) (weighted η) j kl)
    have hxw : (fun a j m n => (ct t).xmpq m * ξ a j m n) = weighted ξ := weighted_eq ξ
    have hxw' : (fun a j m n => (ct t).xmpq m * η a j m n) = weighted η := weighted_eq η
    rw [hxw, hxw']
    dsimp only
    refine (congrArg₂ (· - ·) ps rfl).trans ?_
    rw [hm]
    ring
  refine assemble hT hσ (hD ξ η hlam hax hbd) (fun t ht j h0 h1 hj1 => ?_) (fun t ht h0 => ?_) (fun hl => ?_)
  · by_cases hb : j = K.ns - 1 ∧ ¬ (K.lfreeb = true ∧ vacuum = true)
    · have z : ∀ m n, (∀ a, ξ a j m n = 0) ∧ ∀ a, η a j m n = 0 := by rw [hb.1]; exact hbd hb.2
      have z2 : ∀ a m n, ξ a j m n = 0 := fun a m n => (z m n).1 a
      have z3 : ∀ a m n, η a j m n = 0 := fun a m n => (z m n).2 a
      refine (still j z).congr_deriv ?_
      simp only [Transform.Spec.modePower, Asym.Spec.modePowerA, z2, z3]
      simp
    · rw [split t ht j h0 h1 hb]
      obtain ⟨b1, b2, b3, b4, b5, b6⟩ := owned_range hT ht h0 h1
      obtain ⟨c1, c2, c3⟩ := hcon t ht j h0 h1
      have sp := surface_power (c := ct t) hs hσ (tcon t) (q t) (gEff t) (st t) (j := j) ⟨b2, h0, h1⟩ b5 hj1
        (Asym.Spec.geo s A B j) (Asym.Spec.geo s (weighted A) (weighted B) j) (Asym.Spec.geo s ξ η j)
        (Asym.Spec.geo s (weighted ξ) (weighted η) j)
        (r0 j) (z0 j) (fun kl k0 k1 => by
          obtain ⟨d1, d2, d3, d4⟩ := conOf_asym (c := ct t) hs hn rfl A B (x t) (xa t) b1 (by show (R t).nsMinF1 ≤ (R t).nsMaxF1; omega)
            (by show (R t).nsMinF ≤ (R t).nsMaxFIncludingLcfs; omega)
            (fun a j m n h1 h2 h3 h4 h5 h6 => (hx t ht j m n h1 h2 h3 h4 h5 h6).1 a)
            (fun a j m n h1 h2 h3 h4 h5 h6 => (hx t ht j m n h1 h2 h3 h4 h5 h6).2 a)
            (rCon0 t) (zCon0 t) (u t) (v t) (j := j) (kl := kl) ⟨b3, b4⟩ ⟨h0, b5⟩ ⟨k0, k1⟩
          refine ⟨?_, ?_, d3, d4⟩
          · rw [d1]; exact congrArg₂ (· - ·) rfl (c3 kl k0 k1).1
          · rw [d2]; exact congrArg₂ (· - ·) rfl (c3 kl k0 k1).2)
      show HasDerivAt (pen j) _ 0
      rw [hpen' j]
      have c1' : (ct t).sqrtSF (j - (ct t).r.nsMinF1) = S j := c1
      have c2' : tcon t (j - (ct t).r.nsMinF) = T j := c2
      rw [c1', c2'] at sp
      rw [c1]
      exact sp
  · have g0 := Kernels.good_of_team hT ht
    have g1 := g0.maxF
    have g2 := g0.ns3
    have := split t ht 0 (by omega) (by omega) (by omega)
    have ax := axis_power (c := ct t) hs (facconOf s.mpol K.signOfJacobian) (tcon t) (effective (ct t) (q t) (gEff t)) (fun kl =>
        let i := (0 - (R t).nsMinF) * s.nZnT + kl
        moved (sqrtSF t (0 - (R t).nsMinF1)) ((q t).ruFull i) ((q t).zuFull i) ((q t).rCon i - (q t).rCon0 i) ((q t).zCon i - (q t).zCon0 i)
            (Asym.Spec.geo s ξ η 0 kl) (Asym.Spec.geo s (weighted ξ) (weighted η) 0 kl)) (st t)
      ⟨by show 0 ≤ (R t).nsMinF; omega, by show (R t).nsMinF ≤ 0; omega, by show 0 < (R t).nsMaxF; omega⟩
    exact sub_eq_zero.1 (this.trans ax)
  · exact still _ (hbd (by rw [hl]; simp))

theorem wInt_pos_asym {c : Ctx} {nfp mpol ntor ntheta nzeta mg ng : Int} (hs : Sizes.mk true nfp mpol ntor ntheta nzeta mg ng = .ok c.s)
    (l : Int) : (0 : ℝ) < Sizes.wInt c.s l := by
  have hg := full_of_mk hs
  have := hg.red
  have := hg.nyq
  have := hg.ntor
  have := hg.even
  rw [wInt_full hs]
  unfold fw
  have : (0 : ℝ) < (c.s.nZeta * c.s.nThetaEven : Int) := by
    exact_mod_cast mul_pos (show 0 < c.s.nZeta by omega) (show 0 < c.s.nThetaEven by omega)
  positivity

/-- C71: lifted circular torus, mpol = 4, ntor = 1, two threads, reference -1, multiplier 1 -/
example (ξ : Coef → Int → Int → Int → ℝ) (η : CoefA → Int → Int → Int → ℝ)
    (h1 : ∀ j m n, (ξ .lsc j m n = 0 ∧ ξ .lcs j m n = 0) ∧ η .lcc j m n = 0 ∧ η .lss j m n = 0)
    (h2 : ∀ m n, 1 ≤ m → (∀ a, ξ a 0 m n = 0) ∧ ∀ a, η a 0 m n = 0)
    (h3 : ∀ m n, (∀ a, ξ a 4 m n = 0) ∧ ∀ a, η a 4 m n = 0) :
    ∃ (s : Sizes.Sizes) (R : Int → Ranges) (F : Int → (Coef → Int → ℝ) × (CoefA → Int → ℝ)),
    Sizes.mk true 5 4 1 0 0 0 0 = .ok s ∧ HasDerivAt (fun ε =>
        let A' : Coef → Int → Int → Int → ℝ := fun a j m n => ringCoef a j m n + ε * ξ a j m n
        let B' : CoefA → Int → Int → Int → ℝ := fun a j m n => liftCoef a j m n + ε * η a j m n
        Kernels.torusEnergy (ringCtx s) Kernels.ringProf
          (Kernels.fluxU (ringCtx s) Kernels.ringProf (Asym.Spec.geo s ringCoef liftCoef))
          (Kernels.fluxV (ringCtx s) Kernels.ringProf (Asym.Spec.geo s ringCoef liftCoef)) (Asym.Spec.geo s A' B') +
        (ringCtx s).deltaS * ∑ j ∈ Ico 1 5, penalty s 1 fun kl => misalignment 1 (-1) 0 (Asym.Spec.geo s A' B' j kl)
          (Asym.Spec.geo s (weighted A') (weighted B') j kl))
      (-((ringCtx s).deltaS * (ringCtx s).signOfJacobian * ∑ t ∈ Ico 0 2, ∑ j ∈ Ico (R t).nsMinF (R t).nsMaxF,
        (Transform.Spec.modePower 4 1 (fun a m n => (F t).1 a (((j - (R t).nsMinF) * 4 + m) * (1 + 1) + n)) (fun a => ξ a j) +
          Asym.Spec.modePowerA 4 1 (fun a m n => (F t).2 a (((j - (R t).nsMinF) * 4 + m) * (1 + 1) + n)) fun a => η a j))) 0 := by
  obtain ⟨s, hs⟩ : ∃ s, Sizes.mk true 5 4 1 0 0 0 0 = .ok s := ⟨_, rfl⟩
  obtain ⟨R, hR⟩ := Kernels.demo_team 2 (by omega) (by omega)
  have hsz : 2 ≤ s.mpol ∧ 0 ≤ s.ntor := by
    obtain ⟨⟨a1, a2, a3, a4⟩, _⟩ := (Sizes.C07_sizes true 5 4 1 0 0 0 0).2 s hs
    omega
  obtain ⟨z1, z2, z3, _⟩ := grid_of_mk (c := ⟨s, R 0, 5, false, false, xmpqOf, fun _ => 1⟩) hs
  have hp : 0 < s.nZnT := by rw [show s.nZnT = s.nZeta * s.nThetaEff from z1]; exact mul_pos z3 z2
  choose g geo w hw using fun t => Kernels.windows_exist (ringCtx s) (R t) Kernels.ringProf (Asym.Spec.geo s ringCoef liftCoef)
  have hV := ring_volume s (Asym.Spec.geo s ringCoef liftCoef) hp
    (wInt_pos_asym (c := ⟨s, R 0, 5, false, false, xmpqOf, fun _ => 1⟩) hs) (lifted_gsqrt' s hsz)
  obtain ⟨e, he, hD⟩ := C71_gradient_asym (K := ringCtx s) (P := Kernels.ringProf) (R := R) (g := g) (w := w) (sqrtSF := fun _ _ => 1)
    (vacuum := false) ringCoef liftCoef (fun _ a i => ringCoef a 0 (i / (1 + 1) % 4) (i % (1 + 1)))
    (fun _ a i => liftCoef a 0 (i / (1 + 1) % 4) (i % (1 + 1))) (fun _ => 1) (fun _ => 1) (fun _ _ => -1) (fun _ _ => 0)
    (fun _ _ => 1) (fun _ _ => -1) (fun _ _ => 0) (fun _ _ => 0) (fun _ _ => 0) (fun _ _ => 0) (fun _ _ _ _ => 0) (fun _ _ _ _ => 0)
    (fun _ => (fun _ _ => 0, fun _ _ => 0)) hs (by omega) ⟨rfl, rfl, rfl, rfl, fun _ _ _ => rfl⟩ (Or.inr rfl) hR
    (fun t _ j m n _ _ m0 m1 n0 n1 =>
      ⟨ring_arrays ringCoef (fun a _ _ _ => by cases a <;> rfl) 4 1 (R t).nsMinF1 m0 m1 n0 n1,
        ring_arrays liftCoef (fun a _ _ _ => by cases a <;> rfl) 4 1 (R t).nsMinF1 m0 m1 n0 n1⟩)
    (fun _ _ _ _ _ => ⟨rfl, rfl, fun _ _ _ => ⟨rfl, rfl⟩⟩)
    (fun t _ => ⟨_, hw t⟩) (by norm_num [ringCtx, Kernels.demo]) (fun h kl _ _ _ _ => (lifted_gsqrt' s hsz h kl).ne) (fun h _ _ => hV h)
  exact ⟨s, R, _, hs, hD ξ η h1 h2 fun _ => h3⟩

end Verif.Constraint
