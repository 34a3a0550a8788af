import Verif.Asym.PropsB

/-!
# C69: the Fourier forces are the gradient of the energy, without stellarator symmetry
-/
namespace Verif.Asym
open Verif Verif.Fourier Partition Finset Transform

theorem even_odd_linear (nfp ntor : Int) (M : Finset Int) (a b a' b' c d c' d' : Int → Int → ℝ) (ε : ℝ) :
    (fun θ φ => Transform.Spec.evenSeries nfp ntor M (fun m n => a m n + ε * a' m n) (fun m n => b m n + ε * b' m n) θ φ +
        Transform.Spec.oddSeries nfp ntor M (fun m n => c m n + ε * c' m n) (fun m n => d m n + ε * d' m n) θ φ) =
      fun θ φ => (Transform.Spec.evenSeries nfp ntor M a b θ φ + Transform.Spec.oddSeries nfp ntor M c d θ φ) +
        ε * (Transform.Spec.evenSeries nfp ntor M a' b' θ φ + Transform.Spec.oddSeries nfp ntor M c' d' θ φ) := by
  funext θ φ
  rw [even_linear, odd_linear]
  ring

theorem odd_even_linear (nfp ntor : Int) (M : Finset Int) (a b a' b' c d c' d' : Int → Int → ℝ) (ε : ℝ) :
    (fun θ φ => Transform.Spec.oddSeries nfp ntor M (fun m n => a m n + ε * a' m n) (fun m n => b m n + ε * b' m n) θ φ +
        Transform.Spec.evenSeries nfp ntor M (fun m n => c m n + ε * c' m n) (fun m n => d m n + ε * d' m n) θ φ) =
      fun θ φ => (Transform.Spec.oddSeries nfp ntor M a b θ φ + Transform.Spec.evenSeries nfp ntor M c d θ φ) +
        ε * (Transform.Spec.oddSeries nfp ntor M a' b' θ φ + Transform.Spec.evenSeries nfp ntor M c' d' θ φ) := by
  funext θ φ
  rw [even_linear, odd_linear]
  ring

theorem eo_diff (nfp ntor : Int) (M : Finset Int) (a b c d : Int → Int → ℝ) :
    (∀ φ, Differentiable ℝ fun θ => Transform.Spec.evenSeries nfp ntor M a b θ φ + Transform.Spec.oddSeries nfp ntor M c d θ φ) ∧
      ∀ θ, Differentiable ℝ fun φ => Transform.Spec.evenSeries nfp ntor M a b θ φ + Transform.Spec.oddSeries nfp ntor M c d θ φ :=
  ⟨fun φ => ((even_diff nfp ntor M a b).1 φ).add ((odd_diff nfp ntor M c d).1 φ),
    fun θ => ((even_diff nfp ntor M a b).2 θ).add ((odd_diff nfp ntor M c d).2 θ)⟩

theorem oe_diff (nfp ntor : Int) (M : Finset Int) (a b c d : Int → Int → ℝ) :
    (∀ φ, Differentiable ℝ fun θ => Transform.Spec.oddSeries nfp ntor M a b θ φ + Transform.Spec.evenSeries nfp ntor M c d θ φ) ∧
      ∀ θ, Differentiable ℝ fun φ => Transform.Spec.oddSeries nfp ntor M a b θ φ + Transform.Spec.evenSeries nfp ntor M c d θ φ :=
  ⟨fun φ => ((odd_diff nfp ntor M a b).1 φ).add ((even_diff nfp ntor M c d).1 φ),
    fun θ => ((odd_diff nfp ntor M a b).2 θ).add ((even_diff nfp ntor M c d).2 θ)⟩

/-- the geometry is linear in the coefficients -/
theorem point_linear (s : Sizes.Sizes) (A ξ : Coef → Int → Int → Int → ℝ) (B η : CoefA → Int → Int → Int → ℝ) (ε : ℝ) (j k l : Int)
    (a : GArr) (e : Bool) :
    get (Spec.geoPoint s (fun a j m n => A a j m n + ε * ξ a j m n) (fun a j m n => B a j m n + ε * η a j m n) j k l) a e =
      get (Spec.geoPoint s A B j k l) a e + ε * get (Spec.geoPoint s ξ η j k l) a e := by
  have E := fun (f f' g g' : Int → Int → ℝ) (p p' q q' : Int → Int → ℝ) e θ φ =>
    congrFun (congrFun (even_odd_linear s.nfp s.ntor (Transform.Spec.modes s.mpol j e) f g f' g' p q p' q' ε) θ) φ
  have O := fun (f f' g g' : Int → Int → ℝ) (p p' q q' : Int → Int → ℝ) e θ φ =>
    congrFun (congrFun (odd_even_linear s.nfp s.ntor (Transform.Spec.modes s.mpol j e) f g f' g' p q p' q' ε) θ) φ
  unfold Spec.geoPoint
  dsimp only
  simp only [E, O]
  cases a <;> cases e <;> simp only [get]
  · rw [deriv_lin ((eo_diff _ _ _ _ _ _ _).1 _) ((eo_diff _ _ _ _ _ _ _).1 _)]
  · rw [deriv_lin ((eo_diff _ _ _ _ _ _ _).1 _) ((eo_diff _ _ _ _ _ _ _).1 _)]
  · rw [deriv_lin ((eo_diff _ _ _ _ _ _ _).2 _) ((eo_diff _ _ _ _ _ _ _).2 _)]
  · rw [deriv_lin ((eo_diff _ _ _ _ _ _ _).2 _) ((eo_diff _ _ _ _ _ _ _).2 _)]
  · rw [deriv_lin ((oe_diff _ _ _ _ _ _ _).1 _) ((oe_diff _ _ _ _ _ _ _).1 _)]
  · rw [deriv_lin ((oe_diff _ _ _ _ _ _ _).1 _) ((oe_diff _ _ _ _ _ _ _).1 _)]
  · rw [deriv_lin ((oe_diff _ _ _ _ _ _ _).2 _) ((oe_diff _ _ _ _ _ _ _).2 _)]
  · rw [deriv_lin ((oe_diff _ _ _ _ _ _ _).2 _) ((oe_diff _ _ _ _ _ _ _).2 _)]
  · rw [deriv_lin ((oe_diff _ _ _ _ _ _ _).1 _) ((oe_diff _ _ _ _ _ _ _).1 _)]
  · rw [deriv_lin ((oe_diff _ _ _ _ _ _ _).1 _) ((oe_diff _ _ _ _ _ _ _).1 _)]
  · rw [deriv_lin ((oe_diff _ _ _ _ _ _ _).2 _) ((oe_diff _ _ _ _ _ _ _).2 _)]; ring
  · rw [deriv_lin ((oe_diff _ _ _ _ _ _ _).2 _) ((oe_diff _ _ _ _ _ _ _).2 _)]; ring

/-- no lambda coefficients, no lambda -/
theorem point_lambda (s : Sizes.Sizes) (ξ : Coef → Int → Int → Int → ℝ) (η : CoefA → Int → Int → Int → ℝ) (j k l : Int)
    (h : ∀ m n, (ξ .lsc j m n = 0 ∧ ξ .lcs j m n = 0) ∧ η .lcc j m n = 0 ∧ η .lss j m n = 0) (e : Bool) :
    get (Spec.geoPoint s ξ η j k l) .lu e = 0 ∧ get (Spec.geoPoint s ξ η j k l) .lv e = 0 := by
  have e1 : ξ .lsc j = fun _ _ => 0 := by funext m n; exact (h m n).1.1
  have e2 : ξ .lcs j = fun _ _ => 0 := by funext m n; exact (h m n).1.2
  have e3 : η .lcc j = fun _ _ => 0 := by funext m n; exact (h m n).2.1
  have e4 : η .lss j = fun _ _ => 0 := by funext m n; exact (h m n).2.2
  have f1 : ∀ M θ φ, Transform.Spec.evenSeries s.nfp s.ntor M (fun _ _ => 0) (fun _ _ => 0) θ φ = 0 := by
    intro M θ φ; simp [Transform.Spec.evenSeries]
  have f2 : ∀ M θ φ, Transform.Spec.oddSeries s.nfp s.ntor M (fun _ _ => 0) (fun _ _ => 0) θ φ = 0 := by
    intro M θ φ; simp [Transform.Spec.oddSeries]
  unfold Spec.geoPoint
  dsimp only
  simp only [e1, e2, e3, e4, f1, f2]
  cases e <;> simp [get]

theorem geo_move (s : Sizes.Sizes) (A ξ : Coef → Int → Int → Int → ℝ) (B η : CoefA → Int → Int → Int → ℝ)
    (hξ : ∀ j m n, (ξ .lsc j m n = 0 ∧ ξ .lcs j m n = 0) ∧ η .lcc j m n = 0 ∧ η .lss j m n = 0) (ε : ℝ) (j kl : Int) :
    Spec.geo s (fun a j m n => A a j m n + ε * ξ a j m n) (fun a j m n => B a j m n + ε * η a j m n) j kl =
      Kernels.Spec.move (Spec.geo s A B j kl) (Spec.geo s ξ η j kl) ε := by
  refine geo_ext fun a e => ?_
  unfold Spec.geo
  rw [point_linear]
  have hl := point_lambda s ξ η j (kl / s.nThetaEff) (kl % s.nThetaEff) (hξ j) e
  unfold Kernels.Spec.move
  cases a
  case lu => rw [hl.1]; cases e <;> simp [get]
  case lv => rw [hl.2]; cases e <;> simp [get]
  all_goals cases e <;> rfl

theorem geo_zero (s : Sizes.Sizes) (ξ : Coef → Int → Int → Int → ℝ) (η : CoefA → Int → Int → Int → ℝ) (j kl : Int)
    (h : ∀ m n, (∀ a, ξ a j m n = 0) ∧ ∀ a, η a j m n = 0) : Spec.geo s ξ η j kl = ⟨0, 0, 0, 0, 0, 0, 0, 0, 0, 0, 0, 0, 0, 0, 0, 0⟩ := by
  have e : ∀ a, ξ a j = fun _ _ => 0 := fun a => by funext m n; exact (h m n).1 a
  have e' : ∀ a, η a j = fun _ _ => 0 := fun a => by funext m n; exact (h m n).2 a
  have f1 : ∀ M θ φ, Transform.Spec.evenSeries s.nfp s.ntor M (fun _ _ => 0) (fun _ _ => 0) θ φ = 0 := by
    intro M θ φ; simp [Transform.Spec.evenSeries]
  have f2 : ∀ M θ φ, Transform.Spec.oddSeries s.nfp s.ntor M (fun _ _ => 0) (fun _ _ => 0) θ φ = 0 := by
    intro M θ φ; simp [Transform.Spec.oddSeries]
  unfold Spec.geo Spec.geoPoint
  simp only [e, e', f1, f2, add_zero, deriv_const, neg_zero]

/-- **C69**, gradient: from the Fourier coefficients, symmetric and antisymmetric, to the Fourier forces. Coefficients `A`, `B`
    describe a torus without stellarator symmetry; the threads of a team transform their part of it to real space on the
    reduced interval, extend it to the full poloidal interval, evaluate the force kernels, split the forces into their parts
    and transform both back. Then the Fourier forces of all threads together are the gradient, with respect to all coefficients
    of `R` and `Z`, of the energy of the torus at fixed fluxes and fixed mass. The displacement has the m = 0 modes only on the
    axis, and none on the boundary unless it is free and the vacuum field is on; the constraint force is not part of it. What
    the `…_asym` arrays of the forces hold before (`da`) does not matter. -/
theorem C69_gradient {s : Sizes.Sizes} {nfp mpol ntor ntheta nzeta mg ng : Int} {K : Kernels.Ctx} {P : Kernels.Prof} {nt : Int}
    {R : Int → Ranges} {g : Int → Kernels.Given} {w : Int → Kernels.Work} {sqrtSF : Int → Int → ℝ} {xmpq : Int → ℝ} {vacuum : Bool}
    (A : Coef → Int → Int → Int → ℝ) (B : CoefA → Int → Int → Int → ℝ) (x : Int → Coef → Int → ℝ) (xa : Int → CoefA → Int → ℝ)
    (da : Int → FArr → Bool → Int → ℝ)
    (hs : Sizes.mk true nfp mpol ntor ntheta nzeta mg ng = .ok s) (hn : 1 ≤ ntor)
    (hK : K.lthreed = true ∧ K.nZnT = s.nZnT ∧ K.nThetaEff = s.nThetaEff ∧ K.wInt.size = s.nThetaEff ∧
      ∀ l, 0 ≤ l → l < s.nThetaEff → K.wInt.val l = Sizes.wInt s l)
    (hT : Multigrid.GoodTeam nt K.ns K.lfreeb R)
    (hx : ∀ t, isThread nt t → ∀ j m n, (R t).nsMinF1 ≤ j → j < (R t).nsMaxF1 → 0 ≤ m → m < mpol → 0 ≤ n → n ≤ ntor →
      (∀ a, x t a (((j - (R t).nsMinF1) * mpol + m) * (ntor + 1) + n) = A a j m n) ∧
      ∀ a, xa t a (((j - (R t).nsMinF1) * mpol + m) * (ntor + 1) + n) = B a j m n)
    (hW : ∀ t, isThread nt t → ∃ v, Kernels.Windows K (R t) P (Spec.geo s A B) (g t) v (w t))
    (hγ : K.adiabaticIndex ≠ 1)
    (hg : ∀ h kl, 0 ≤ h → h < K.ns - 1 → 0 ≤ kl → kl < K.nZnT →
      Kernels.Spec.gsqrt K.deltaS (P.qH h) (Spec.geo s A B h kl) (Spec.geo s A B (h + 1) kl) ≠ 0)
    (hV : ∀ h, 0 ≤ h → h < K.ns - 1 → 0 < Kernels.Spec.volume K.deltaS K.signOfJacobian K.nZnT (Kernels.wt K) (P.qH h)
      (Spec.geo s A B h) (Spec.geo s A B (h + 1))) :
    let ct : Int → Ctx := fun t => ⟨s, R t, K.ns, K.lfreeb, vacuum, xmpq, sqrtSF t⟩
    ∃ e : Int → Kernels.Evaluated,
      (∀ t, isThread nt t → Kernels.evaluate K (R t) (g t) (geoVec (ct t) (x t) (xa t)) (w t) = .ok (e t)) ∧
      let F := fun t => forcesToFourier (ct t) (forceArrays (e t).force.val (e t).lam.val fun _ _ _ => 0) (da t)
      ∀ (ξ : Coef → Int → Int → Int → ℝ) (η : CoefA → Int → Int → Int → ℝ),
        (∀ j m n, (ξ .lsc j m n = 0 ∧ ξ .lcs j m n = 0) ∧ η .lcc j m n = 0 ∧ η .lss j m n = 0) →
        (∀ m n, 1 ≤ m → (∀ a, ξ a 0 m n = 0) ∧ ∀ a, η a 0 m n = 0) →
        (¬ (K.lfreeb = true ∧ vacuum = true) → ∀ m n, (∀ a, ξ a (K.ns - 1) m n = 0) ∧ ∀ a, η a (K.ns - 1) m n = 0) →
        HasDerivAt (fun ε => Kernels.torusEnergy K P (Kernels.fluxU K P (Spec.geo s A B)) (Kernels.fluxV K P (Spec.geo s A B))
            (Spec.geo s (fun a j m n => A a j m n + ε * ξ a j m n) fun a j m n => B a j m n + ε * η a j m n))
          (-(K.deltaS * K.signOfJacobian * ∑ t ∈ Ico 0 nt, ∑ j ∈ Ico (R t).nsMinF (R t).nsMaxF,
            (Transform.Spec.modePower mpol ntor (fun a m n => (F t).1 a (((j - (R t).nsMinF) * mpol + m) * (ntor + 1) + n)) (fun a => ξ a j) +
              Spec.modePowerA mpol ntor (fun a m n => (F t).2 a (((j - (R t).nsMinF) * mpol + m) * (ntor + 1) + n)) fun a => η a j))) 0 := by
  intro ct
  obtain ⟨k1, k2, k3, k4, k5⟩ := hK
  have hs0 : Sizes.mk true nfp mpol ntor ntheta nzeta mg ng = .ok (ct 0).s := hs
  have hf := full_of_mk hs0
  have hpos : 0 < s.nThetaEff := by
    have h2' : s.nThetaEff = s.nThetaEven := hf.full
    have h3' : s.nThetaEven = 2 * (s.nThetaReduced - 1) := hf.even
    have h4 : 2 ≤ s.nThetaReduced := hf.red
    omega
  have hz : 0 ≤ s.nZeta := by
    have a : 2 * s.ntor < s.nZeta := hf.nyq
    have b : 0 ≤ s.ntor := hf.ntor
    omega
  have hznt : s.nZnT = s.nZeta * s.nThetaEff := hf.znt
  have hc : Kernels.GoodCtx K := ⟨by rw [k3]; exact hpos, by rw [k2]; exact hznt ▸ mul_nonneg hz hpos.le, by rw [k4, k3]⟩
  have hwt : Kernels.wt K = fun kl => Sizes.wInt s (kl % s.nThetaEff) := by
    funext kl
    unfold Kernels.wt
    rw [k3]
    exact k5 _ (Int.emod_nonneg _ hpos.ne') (Int.emod_lt_of_pos _ hpos)
  have hW' : ∀ t, isThread nt t → Kernels.Windows K (R t) P (Spec.geo s A B) (g t) (geoVec (ct t) (x t) (xa t)) (w t) := by
    intro t ht
    obtain ⟨v, hv⟩ := hW t ht
    have gt := Kernels.good_of_team hT ht
    refine { hv with geo := ?_ }
    have := C68_geometry (c := ct t) hs hn A B (x t) (xa t) (by have := gt.minF1; show 0 ≤ (R t).nsMinF1; omega)
      (by
        show (R t).nsMinF ≤ (R t).nsMaxFIncludingLcfs
        have e1 := gt.lcfs
        have e2 := gt.maxF
        have e3 := gt.maxF_le
        have : numSurfacesToDistribute K.ns K.lfreeb ≤ K.ns := by unfold numSurfacesToDistribute; split <;> omega
        rw [e1]
        split <;> omega)
      (fun a j m n h1 h2 h3 h4 h5 h6 => (hx t ht j m n h1 h2 h3 h4 h5 h6).1 a)
      (fun a j m n h1 h2 h3 h4 h5 h6 => (hx t ht j m n h1 h2 h3 h4 h5 h6).2 a)
    rw [k2]
    exact this
  obtain ⟨e, he, hD⟩ := Kernels.C59_team hc hT hW' hγ hg hV
  refine ⟨e, he, fun ξ η hlam hax hbd => ?_⟩
  have hD' := hD (Spec.geo s ξ η) fun hl kl => geo_zero s ξ η _ kl (hbd (by rw [hl]; simp))
  have efun : (fun ε => Kernels.torusEnergy K P (Kernels.fluxU K P (Spec.geo s A B)) (Kernels.fluxV K P (Spec.geo s A B))
      (Spec.geo s (fun a j m n => A a j m n + ε * ξ a j m n) fun a j m n => B a j m n + ε * η a j m n)) =
      fun ε => Kernels.torusEnergy K P (Kernels.fluxU K P (Spec.geo s A B)) (Kernels.fluxV K P (Spec.geo s A B))
        fun j kl => Kernels.Spec.move (Spec.geo s A B j kl) (Spec.geo s ξ η j kl) ε := by
    funext ε
    congr 1
    funext j kl
    exact geo_move s A ξ B η hlam ε j kl
  rw [efun]
  refine hD'.congr_deriv ?_
  congr 2
  refine Finset.sum_congr rfl fun t ht => Finset.sum_congr rfl fun j hj => ?_
  rw [Finset.mem_Ico] at ht hj
  have gt := Kernels.good_of_team hT ht
  by_cases hb : j = K.ns - 1 ∧ ¬ (K.lfreeb = true ∧ vacuum = true)
  · have z : ∀ m n, (∀ a, ξ a j m n = 0) ∧ ∀ a, η a j m n = 0 := by rw [hb.1]; exact hbd hb.2
    have z1 : ∀ kl, Spec.geo s ξ η j kl = _ := fun kl => geo_zero s ξ η j kl z
    have z2 : ∀ a m n, ξ a j m n = 0 := fun a m n => (z m n).1 a
    have z3 : ∀ a m n, η a j m n = 0 := fun a m n => (z m n).2 a
    simp only [z1, Kernels.Spec.integral, Kernels.Spec.power, Transform.Spec.modePower, Spec.modePowerA, z2, z3]
    simp
  · have hjm : j < jMaxRZ (ct t) := by
      have e1 : (ct t).lfreeb = K.lfreeb := rfl
      have e2 : (ct t).vacuum = vacuum := rfl
      have e3 : (ct t).r = R t := rfl
      have e4 : (ct t).ns = K.ns := rfl
      have := gt.maxF_le
      have : numSurfacesToDistribute K.ns K.lfreeb ≤ K.ns := by unfold numSurfacesToDistribute; split <;> omega
      unfold jMaxRZ
      rw [e1, e2, e3, e4]
      split
      · rename_i hh
        rw [lt_min_iff]; omega
      · rename_i hh
        have : j ≠ K.ns - 1 := fun h => hb ⟨h, hh⟩
        rw [lt_min_iff]; omega
    have h0 : 0 ≤ j := by have := gt.minF; omega
    have key := C69_transpose (c := ct t) hs hn (e t).force.val (e t).lam.val (fun _ _ _ => 0) (da t) ξ η ⟨hj.1, hjm⟩ h0
      (fun hj m n hm => by rw [hj]; exact hax m n hm)
    refine Eq.trans ?_ key.symm
    rw [k1, k2, hwt]
    simp only [zero_mul, add_zero]
    rfl

/-! ## A case: the circular torus with mpol = 2, ntor = 1, lifted to Z = 1 -/

/-- shifts the torus in Z: not stellarator symmetric -/
noncomputable def liftCoef : CoefA → Int → Int → Int → ℝ
  | .zcc, _, m, n => if m = 0 ∧ n = 0 then 1 else 0
  | _, _, _, _ => 0

theorem lift_point (s : Sizes.Sizes) (h : s.mpol = 2 ∧ s.ntor = 1) (j k l : Int) :
    antiPoint s liftCoef j k l =
      { r1_e := 0, r1_o := 0, ru_e := 0, ru_o := 0, rv_e := 0, rv_o := 0, z1_e := 1, z1_o := 0
        zu_e := 0, zu_o := 0, zv_e := 0, zv_o := 0, lu_e := 0, lu_o := 0, lv_e := 0, lv_o := 0 } := by
  have e2 : (Ico 0 2 : Finset Int) = {0, 1} := rfl
  have z0 : Transform.Spec.evenSeries s.nfp s.ntor (Transform.Spec.modes s.mpol j true) (liftCoef .zcc j) (liftCoef .zss j) = fun _ _ => 1 := by
    funext θ φ
    unfold Transform.Spec.evenSeries
    rw [h.1, h.2, (modes_two j).1]
    simp [liftCoef, e2, scale]
  have z1 : Transform.Spec.evenSeries s.nfp s.ntor (Transform.Spec.modes s.mpol j false) (liftCoef .zcc j) (liftCoef .zss j) = fun _ _ => 0 := by
    funext θ φ
    unfold Transform.Spec.evenSeries
    rw [h.1, h.2, (modes_two j).2]
    simp [liftCoef, e2, scale]
  have r0 : ∀ M, Transform.Spec.oddSeries s.nfp s.ntor M (liftCoef .rsc j) (liftCoef .rcs j) = fun _ _ => 0 := by
    intro M
    funext θ φ
    simp [Transform.Spec.oddSeries, liftCoef]
  have l0 : ∀ M, Transform.Spec.evenSeries s.nfp s.ntor M (liftCoef .lcc j) (liftCoef .lss j) = fun _ _ => 0 := by
    intro M
    funext θ φ
    simp [Transform.Spec.evenSeries, liftCoef]
  unfold antiPoint
  simp only [z0, z1, r0, l0]
  simp

theorem lifted (s : Sizes.Sizes) (h : s.mpol = 2 ∧ s.ntor = 1) (j kl : Int) :
    Spec.geo s ringCoef liftCoef j kl = { Transform.Spec.geo s ringCoef j kl with z1_e := (Transform.Spec.geo s ringCoef j kl).z1_e + 1 } := by
  refine geo_ext fun a e => ?_
  unfold Spec.geo Transform.Spec.geo
  rw [point_split, lift_point s h]
  cases a <;> cases e <;> simp [get]

theorem lifted_gsqrt (s : Sizes.Sizes) (h : s.mpol = 2 ∧ s.ntor = 1) (j kl : Int) :
    Kernels.Spec.gsqrt (1 / 4) (1 / 2) (Spec.geo s ringCoef liftCoef j kl) (Spec.geo s ringCoef liftCoef (j + 1) kl) < 0 := by
  have key := ring_gsqrt s ⟨h.1, Or.inr h.2⟩ j kl
  rw [lifted s h, lifted s h]
  obtain ⟨θ, hθ⟩ := ring_point s ⟨h.1, Or.inr h.2⟩ j kl
  rw [hθ j (Or.inl rfl), hθ (j + 1) (Or.inr rfl)] at key ⊢
  unfold Kernels.Spec.gsqrt Kernels.Spec.tau Kernels.Spec.mid Kernels.Spec.ds Kernels.Spec.rootTerm Kernels.Spec.R Kernels.Spec.Z
    Kernels.Spec.Ru Kernels.Spec.Zu at key ⊢
  dsimp only at key ⊢
  have h1 := Real.neg_one_le_cos θ
  have h2 := Real.sin_sq_add_cos_sq θ
  nlinarith

/-- C68 -/
example : ∃ c : Ctx, Sizes.mk true 5 2 1 0 0 0 0 = .ok c.s ∧ ∃ (x : Coef → Int → ℝ) (xa : CoefA → Int → ℝ),
    Kernels.Holds (geoVec c x xa) c.r.nsMinF1 c.r.nsMaxF1 c.s.nZnT fun j kl =>
      { Transform.Spec.geo c.s ringCoef j kl with z1_e := (Transform.Spec.geo c.s ringCoef j kl).z1_e + 1 } := by
  obtain ⟨s, hs⟩ : ∃ s, Sizes.mk true 5 2 1 0 0 0 0 = .ok s := ⟨_, rfl⟩
  obtain ⟨R, hR⟩ := Kernels.demo_team 2 (by omega) (by omega)
  have gt := Kernels.good_of_team hR (t := 0) ⟨by omega, by omega⟩
  have hsz : s.mpol = 2 ∧ s.ntor = 1 := by
    obtain ⟨⟨a1, a2, a3, a4⟩, _⟩ := (Sizes.C07_sizes true 5 2 1 0 0 0 0).2 s hs
    exact ⟨a3, a4⟩
  refine ⟨⟨s, R 0, 5, false, false, fun _ => 1, fun _ => 1⟩, hs, fun a i => ringCoef a 0 (i / 2 % 2) (i % 2),
    fun a i => liftCoef a 0 (i / 2 % 2) (i % 2), ?_⟩
  simp only [← lifted s hsz]
  refine C68_geometry hs (by omega) ringCoef liftCoef _ _ (by have := gt.minF1; show 0 ≤ (R 0).nsMinF1; omega) ?_ ?_ ?_
  · show (R 0).nsMinF ≤ (R 0).nsMaxFIncludingLcfs
    have e1 := gt.lcfs
    have e2 := gt.maxF
    have e3 := gt.maxF_le
    have : numSurfacesToDistribute 5 false ≤ 5 := by decide
    rw [e1]
    show _ ≤ if (R 0).nsMaxF1 = 5 then 5 else _
    have e4 : (R 0).nsMaxF ≤ numSurfacesToDistribute 5 false := e3
    split <;> omega
  · intro a j m n _ _ m0 m1 n0 n1
    have e1 : (((j - (R 0).nsMinF1) * 2 + m) * (1 + 1) + n) / 2 % 2 = m := by omega
    have e2 : (((j - (R 0).nsMinF1) * 2 + m) * (1 + 1) + n) % 2 = n := by omega
    show ringCoef a 0 _ _ = _
    rw [e1, e2]
    cases a <;> rfl
  · intro a j m n _ _ m0 m1 n0 n1
    have e1 : (((j - (R 0).nsMinF1) * 2 + m) * (1 + 1) + n) / 2 % 2 = m := by omega
    have e2 : (((j - (R 0).nsMinF1) * 2 + m) * (1 + 1) + n) % 2 = n := by omega
    show liftCoef a 0 _ _ = _
    rw [e1, e2]
    cases a <;> rfl

/-- C69 -/
example (ξ : Coef → Int → Int → Int → ℝ) (η : CoefA → Int → Int → Int → ℝ)
    (h1 : ∀ j m n, (ξ .lsc j m n = 0 ∧ ξ .lcs j m n = 0) ∧ η .lcc j m n = 0 ∧ η .lss j m n = 0)
    (h2 : ∀ m n, 1 ≤ m → (∀ a, ξ a 0 m n = 0) ∧ ∀ a, η a 0 m n = 0)
    (h3 : ∀ m n, (∀ a, ξ a 4 m n = 0) ∧ ∀ a, η a 4 m n = 0) :
    ∃ (s : Sizes.Sizes) (R : Int → Ranges) (F : Int → (Coef → Int → ℝ) × (CoefA → Int → ℝ)),
    Sizes.mk true 5 2 1 0 0 0 0 = .ok s ∧ HasDerivAt (fun ε => Kernels.torusEnergy (ringCtx s) Kernels.ringProf
        (Kernels.fluxU (ringCtx s) Kernels.ringProf (Spec.geo s ringCoef liftCoef))
        (Kernels.fluxV (ringCtx s) Kernels.ringProf (Spec.geo s ringCoef liftCoef))
        (Spec.geo s (fun a j m n => ringCoef a j m n + ε * ξ a j m n) fun a j m n => liftCoef a j m n + ε * η a j m n))
      (-((ringCtx s).deltaS * (ringCtx s).signOfJacobian * ∑ t ∈ Ico 0 2, ∑ j ∈ Ico (R t).nsMinF (R t).nsMaxF,
        (Transform.Spec.modePower 2 1 (fun a m n => (F t).1 a (((j - (R t).nsMinF) * 2 + m) * (1 + 1) + n)) (fun a => ξ a j) +
          Spec.modePowerA 2 1 (fun a m n => (F t).2 a (((j - (R t).nsMinF) * 2 + m) * (1 + 1) + n)) fun a => η a j))) 0 := by
  obtain ⟨s, hs⟩ : ∃ s, Sizes.mk true 5 2 1 0 0 0 0 = .ok s := ⟨_, rfl⟩
  obtain ⟨R, hR⟩ := Kernels.demo_team 2 (by omega) (by omega)
  have hsz : s.mpol = 2 ∧ s.ntor = 1 := by
    obtain ⟨⟨a1, a2, a3, a4⟩, _⟩ := (Sizes.C07_sizes true 5 2 1 0 0 0 0).2 s hs
    exact ⟨a3, a4⟩
  have hf := full_of_mk (c := ⟨s, R 0, 5, false, false, fun _ => 1, fun _ => 1⟩) hs
  have hred : 2 ≤ s.nThetaReduced := hf.red
  have hev : s.nThetaEven = 2 * (s.nThetaReduced - 1) := hf.even
  have hfull : s.nThetaEff = s.nThetaEven := hf.full
  have hz : 1 ≤ s.nZeta := by
    have a : 2 * s.ntor < s.nZeta := hf.nyq
    omega
  choose g geo w hw using fun t => Kernels.windows_exist (ringCtx s) (R t) Kernels.ringProf (Spec.geo s ringCoef liftCoef)
  have hV : ∀ h, 0 < Kernels.Spec.volume (ringCtx s).deltaS (ringCtx s).signOfJacobian (ringCtx s).nZnT (Kernels.wt (ringCtx s))
      (Kernels.ringProf.qH h) (Spec.geo s ringCoef liftCoef h) (Spec.geo s ringCoef liftCoef (h + 1)) := by
    intro h
    have e : (ringCtx s).signOfJacobian = -1 := rfl
    unfold Kernels.Spec.volume Kernels.Spec.integral
    rw [e, neg_one_mul, ← Finset.sum_neg_distrib]
    have hp : 0 < s.nZnT := by
      rw [show s.nZnT = s.nZeta * s.nThetaEff from hf.znt]
      exact mul_pos (by omega) (by omega)
    refine Finset.sum_pos (fun kl _ => ?_) ⟨0, by rw [Finset.mem_Ico]; exact ⟨le_refl _, hp⟩⟩
    have k1 := lifted_gsqrt s hsz h kl
    have k2 : 0 < Kernels.wt (ringCtx s) kl := by
      show 0 < Sizes.wInt s (kl % s.nThetaEff)
      rw [show Sizes.wInt s (kl % s.nThetaEff) = fw ⟨s, R 0, 5, false, false, fun _ => 1, fun _ => 1⟩ from
        wInt_full (c := ⟨s, R 0, 5, false, false, fun _ => 1, fun _ => 1⟩) hs _]
      unfold fw
      have : (0 : ℝ) < (s.nZeta * s.nThetaEven : Int) := by
        exact_mod_cast mul_pos (show 0 < s.nZeta by omega) (show 0 < s.nThetaEven by omega)
      dsimp only
      positivity
    show 0 < -(Kernels.Spec.gsqrt (1 / 4) (1 / 2) _ _ * _)
    nlinarith [mul_pos (neg_pos.2 k1) k2]
  obtain ⟨e, he, hD⟩ := C69_gradient (K := ringCtx s) (P := Kernels.ringProf) (R := R) (g := g) (w := w) (sqrtSF := fun _ _ => 1)
    (xmpq := fun _ => 1) (vacuum := false) ringCoef liftCoef (fun _ a i => ringCoef a 0 (i / 2 % 2) (i % 2))
    (fun _ a i => liftCoef a 0 (i / 2 % 2) (i % 2)) (fun _ _ _ _ => 0) hs (by omega) ⟨rfl, rfl, rfl, rfl, fun _ _ _ => rfl⟩ hR
    (fun t _ j m n _ _ m0 m1 n0 n1 => by
      have e1 : (((j - (R t).nsMinF1) * 2 + m) * (1 + 1) + n) / 2 % 2 = m := by omega
      have e2 : (((j - (R t).nsMinF1) * 2 + m) * (1 + 1) + n) % 2 = n := by omega
      rw [e1, e2]
      exact ⟨fun a => by cases a <;> rfl, fun a => by cases a <;> rfl⟩)
    (fun t _ => ⟨_, hw t⟩) (by norm_num [ringCtx, Kernels.demo]) (fun h kl _ _ _ _ => (lifted_gsqrt s hsz h kl).ne) (fun h _ _ => hV h)
  exact ⟨s, R, _, hs, hD ξ η h1 h2 fun _ => h3⟩

end Verif.Asym
